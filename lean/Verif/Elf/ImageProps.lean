import Verif.Elf.ImageLemmas
import Verif.Elf.SymtabProps

/-! Property theorem C10: what the parser hands out lies in the file, where the format says. -/

set_option autoImplicit false

namespace Blazesym.Elf
open Blazesym.Util Blazesym.Spec Blazesym.Spec.Elf

theorem readFirstShdr_ok {b : Backend} {h : Ehdr} {s : Shdr} (hr : readFirstShdr b h = .ok s) :
    ShdrAt h.bit32 b.data h.shoff s := by
  obtain ⟨h1, rfl⟩ := readRecord_ok (shdr_pos _) hr
  exact shdrAt_decode h1

theorem realShnum_ok {b : Backend} {h : Ehdr} {n : Nat} (hr : realShnum b h = .ok n) :
    (h.shnum ≠ 0 → n = h.shnum) ∧
      (h.shnum = 0 → ∃ s, ShdrAt h.bit32 b.data h.shoff s ∧ n = s.size) := by
  unfold realShnum at hr
  split at hr
  · obtain ⟨s, h1, h2⟩ := (bind_ok_iff _ _ _).mp hr
    cases h2
    exact ⟨fun hn => absurd (by assumption) hn, fun _ => ⟨s, readFirstShdr_ok h1, rfl⟩⟩
  · cases hr
    exact ⟨fun _ => rfl, fun hn => absurd hn (by assumption)⟩

theorem realPhnum_ok {b : Backend} {h : Ehdr} {n : Nat} (hr : realPhnum b h = .ok n) :
    (h.phnum ≠ 0xffff → n = h.phnum) ∧
      (h.phnum = 0xffff → ∃ s, ShdrAt h.bit32 b.data h.shoff s ∧ n = s.info) := by
  unfold realPhnum at hr
  split at hr
  · rename_i hx
    obtain ⟨s, h1, h2⟩ := (bind_ok_iff _ _ _).mp hr
    cases h2
    exact ⟨fun hn => absurd hx hn, fun _ => ⟨s, readFirstShdr_ok h1, rfl⟩⟩
  · rename_i hx
    cases hr
    exact ⟨fun _ => rfl, fun hn => absurd hn hx⟩

theorem magic_slice {d : Bytes} (h : 16 ≤ d.length) (h0 : field d 0 1 = 0x7f) (h1 : field d 1 1 = 69)
    (h2 : field d 2 1 = 76) (h3 : field d 3 1 = 70) : IsSlice d 0 4 [0x7f, 0x45, 0x4c, 0x46] := by
  rw [isSlice_iff]
  refine ⟨by omega, ?_⟩
  match d, h with
  | a :: b :: c :: e :: t, _ =>
    simp only [field, List.drop_zero, List.drop_succ_cons, List.take_succ_cons, List.take_zero, leValue,
      Nat.mul_zero, Nat.add_zero] at h0 h1 h2 h3
    simp only [List.drop_zero, List.take_succ_cons, List.take_zero, List.cons.injEq, and_true]
    refine ⟨UInt8.toNat_inj.mp ?_, UInt8.toNat_inj.mp ?_, UInt8.toNat_inj.mp ?_, UInt8.toNat_inj.mp ?_⟩
    · rw [h0]; rfl
    · rw [h1]; rfl
    · rw [h2]; rfl
    · rw [h3]; rfl

theorem parseEhdr_parts {b : Backend} {h : EhdrExt} (hr : parseEhdr b = .ok h) :
    16 ≤ b.data.length ∧
    (field b.data 0 1 = 0x7f ∧ field b.data 1 1 = 69 ∧ field b.data 2 1 = 76 ∧ field b.data 3 1 = 70) ∧
    (field b.data 4 1 = 1 ∨ field b.data 4 1 = 2) ∧
    b.readRecord ehdrLayout (decide (field b.data 4 1 = 1)) 0 = .ok h.ehdr ∧
    realShnum b h.ehdr = .ok h.shnum ∧ realPhnum b h.ehdr = .ok h.phnum := by
  unfold parseEhdr at hr
  obtain ⟨ident, hi, hr⟩ := (bind_ok_iff _ _ _).mp hr
  rcases readSlice_ok' hi with ⟨h0, _⟩ | hs
  · omega
  · obtain ⟨hl, rfl⟩ := (isSlice_iff _ _ _ _).mp hs
    have f (k : Nat) (hk : k < 16) : field (List.take (1 * 16) (List.drop 0 b.data)) k 1 = field b.data k 1 := by
      rw [field_sub _ _ _ _ _ (by omega)]; simp
    rw [f 0 (by omega), f 1 (by omega), f 2 (by omega), f 3 (by omega), f 4 (by omega)] at hr
    split at hr
    · cases hr
    · rename_i hm
      simp only [not_not] at hm
      simp only at hr
      split at hr
      · cases hr
      · rename_i hc
        obtain ⟨e, he, hr⟩ := (bind_ok_iff _ _ _).mp hr
        obtain ⟨n, hn, hr⟩ := (bind_ok_iff _ _ _).mp hr
        obtain ⟨m, hm', hr⟩ := (bind_ok_iff _ _ _).mp hr
        cases hr
        refine ⟨by omega, hm, ?_, he, hn, hm'⟩
        unfold ELFCLASS32 ELFCLASS64 at hc
        omega

/-- **C10** an accepted file starts with the ELF magic and a supported class; the header
members and the numbers of section and program headers are those stored at the places the
format defines, all within the file. -/
theorem C10_header (b : Backend) (h : EhdrExt) (hr : parseEhdr b = .ok h) :
    EhdrAt b.data h.ehdr ∧ CountsAt b.data h := by
  obtain ⟨hl, ⟨m0, m1, m2, m3⟩, hc, he, hn, hp⟩ := parseEhdr_parts hr
  obtain ⟨r1, r2⟩ := readRecord_ok (ehdr_pos _) he
  refine ⟨⟨magic_slice hl m0 m1 m2 m3, ?_⟩, ?_⟩
  · rcases hc with hc | hc
    · rw [hc] at r1 r2
      have r1 : 0 + 52 ≤ b.data.length := r1
      have hb : h.ehdr.bit32 = true := by rw [r2]; rfl
      rw [if_pos hb, r2]
      refine ⟨(num_iff _ _ _ _).mpr ⟨by omega, hc.symm⟩, ?_⟩
      have g (k w : Nat) (hk : k + w ≤ 52) : Num b.data k w (field ((b.data.drop 0).take 52) k w) := by
        have := num_field (d := b.data) r1 k w hk
        simpa using this
      exact ⟨g _ _ (by omega), g _ _ (by omega), g _ _ (by omega), g _ _ (by omega), g _ _ (by omega),
        g _ _ (by omega)⟩
    · rw [hc] at r1 r2
      have r1 : 0 + 64 ≤ b.data.length := r1
      have hb : h.ehdr.bit32 = false := by rw [r2]; rfl
      rw [if_neg (by rw [hb]; decide), r2]
      refine ⟨(num_iff _ _ _ _).mpr ⟨by omega, hc.symm⟩, ?_⟩
      have g (k w : Nat) (hk : k + w ≤ 64) : Num b.data k w (field ((b.data.drop 0).take 64) k w) := by
        have := num_field (d := b.data) r1 k w hk
        simpa using this
      exact ⟨g _ _ (by omega), g _ _ (by omega), g _ _ (by omega), g _ _ (by omega), g _ _ (by omega),
        g _ _ (by omega)⟩
  · obtain ⟨a1, a2⟩ := realShnum_ok hn
    obtain ⟨b1, b2⟩ := realPhnum_ok hp
    exact ⟨a1, a2, b1, b2⟩

/-- **C10** the section headers handed out are the `e_shnum` table entries at `e_shoff`, each
wholly inside of the file. -/
theorem C10_section_headers (b : Backend) (l : List Shdr) (hr : parseShdrs b = .ok l) :
    ∃ h, parseEhdr b = .ok h ∧ l.length = h.shnum ∧ ∀ i s, l[i]? = some s →
      ShdrAt h.ehdr.bit32 b.data (h.ehdr.shoff + i * shdrSize h.ehdr.bit32) s := by
  obtain ⟨h, h1, h2⟩ := (bind_ok_iff _ _ _).mp hr
  obtain ⟨h3, h4⟩ := readTable_ok (shdr_pos _) h2
  refine ⟨h, h1, h3, fun i s hi => ?_⟩
  obtain ⟨h5, rfl⟩ := h4 i s hi
  exact shdrAt_decode h5

/-- **C10** likewise for the program headers. -/
theorem C10_program_headers (b : Backend) (l : List Phdr) (hr : parsePhdrs b = .ok l) :
    ∃ h, parseEhdr b = .ok h ∧ l.length = h.phnum ∧ ∀ i p, l[i]? = some p →
      PhdrAt h.ehdr.bit32 b.data (h.ehdr.phoff + i * phdrSize h.ehdr.bit32) p := by
  obtain ⟨h, h1, h2⟩ := (bind_ok_iff _ _ _).mp hr
  obtain ⟨h3, h4⟩ := readTable_ok (phdr_pos _) h2
  refine ⟨h, h1, h3, fun i s hi => ?_⟩
  obtain ⟨h5, rfl⟩ := h4 i s hi
  exact phdrAt_decode h5

theorem sectionHdr_ok {b : Backend} {idx : Nat} {s : Shdr} (h : sectionHdr b idx = .ok s) :
    ∃ l, parseShdrs b = .ok l ∧ l[idx]? = some s := by
  obtain ⟨l, h1, h2⟩ := (bind_ok_iff _ _ _).mp h
  split at h2
  · cases h2; exact ⟨l, h1, by assumption⟩
  · cases h2

theorem contents_of_read {b : Backend} {s : Shdr} {out : Bytes} (ht : s.type ≠ 8)
    (h : b.readSlice s.offset 1 1 s.size = .ok out) : ContentsAre b.data s out := by
  rcases readSlice_ok' h with ⟨h0, h1⟩ | h1
  · left; exact ⟨Or.inr (by omega), h1⟩
  · right; rw [Nat.one_mul] at h1; exact ⟨ht, h1⟩

/-- **C10** raw section data is the part of the file that the section's header describes. -/
theorem C10_section_data_raw (b : Backend) (idx : Nat) (out : Bytes)
    (hr : sectionDataRaw b idx = .ok out) :
    ∃ l s, parseShdrs b = .ok l ∧ l[idx]? = some s ∧ ContentsAre b.data s out := by
  obtain ⟨s, h1, h2⟩ := (bind_ok_iff _ _ _).mp hr
  obtain ⟨l, h3, h4⟩ := sectionHdr_ok h1
  refine ⟨l, s, h3, h4, ?_⟩
  split at h2
  · exact contents_of_read (by assumption) h2
  · rename_i ht
    cases h2
    left
    exact ⟨Or.inl (not_not.mp ht), rfl⟩

theorem shf_compressed (f : Nat) : f &&& SHF_COMPRESSED ≠ 0 ↔ f / 2048 % 2 = 1 := by
  have ht : ∀ i, Nat.testBit (f &&& 2048) i = (Nat.testBit f 11 && decide (i = 11)) := by
    intro i
    rw [Nat.testBit_and, show (2048 : Nat) = 2 ^ 11 from rfl, Nat.testBit_two_pow]
    by_cases hi : i = 11
    · subst hi; simp
    · simp [hi, Ne.symm hi]
  have h11 : Nat.testBit f 11 = decide (f / 2048 % 2 = 1) := Nat.testBit_eq_decide_div_mod_eq
  unfold SHF_COMPRESSED
  constructor
  · intro h
    by_contra hc
    apply h
    apply Nat.eq_of_testBit_eq
    intro i
    rw [ht, h11]; simp [hc]
  · intro h h0
    have := ht 11
    rw [h0, h11] at this
    simp [h] at this

/-- The compressed representation `raw` of a section stands for `out`: a compression header
(type 1 is zlib, 2 is zstd; uncompressed size) followed by the compressed data. -/
def Decompresses (c : Codec) (bit32 : Bool) (raw out : Bytes) : Prop :=
  if bit32 then
    ∃ body, IsSlice raw 12 (raw.length - 12) body ∧ Num raw 4 4 out.length ∧
      ((Num raw 0 4 1 ∧ c.zlib body = .ok out) ∨ (Num raw 0 4 2 ∧ c.zstd body = .ok out))
  else
    ∃ body, IsSlice raw 24 (raw.length - 24) body ∧ Num raw 8 8 out.length ∧
      ((Num raw 0 4 1 ∧ c.zlib body = .ok out) ∨ (Num raw 0 4 2 ∧ c.zstd body = .ok out))

theorem decompress_ok {c : Codec} {bit32 : Bool} {raw out : Bytes}
    (h : decompress c bit32 raw = .ok out) : Decompresses c bit32 raw out := by
  have key (n w k : Nat) (hk : k + w ≤ n) (h4 : 4 ≤ n)
      (h : (if raw.length < n then Except.error Err.invalidData
        else match (if field raw 0 4 = 1 then c.zlib (raw.drop n)
          else if field raw 0 4 = 2 then c.zstd (raw.drop n) else .error .unsupported) with
        | .error e => .error e
        | .ok d => if d.length = field raw k w then .ok d else .error .panic) = .ok out) :
      ∃ body, IsSlice raw n (raw.length - n) body ∧ Num raw k w out.length ∧
        ((Num raw 0 4 1 ∧ c.zlib body = .ok out) ∨ (Num raw 0 4 2 ∧ c.zstd body = .ok out)) := by
    by_cases hl : raw.length < n
    · rw [if_pos hl] at h; cases h
    · rw [if_neg hl] at h
      have hb : IsSlice raw n (raw.length - n) (raw.drop n) :=
        (isSlice_iff _ _ _ _).mpr ⟨by omega, by rw [List.take_of_length_le]; simp⟩
      have fin (d : Bytes) (h : (if d.length = field raw k w then Except.ok d else Except.error Err.panic) = .ok out) :
          d = out ∧ Num raw k w out.length := by
        split at h
        · cases h; exact ⟨rfl, (num_iff _ _ _ _).mpr ⟨by omega, by assumption⟩⟩
        · cases h
      by_cases h1 : field raw 0 4 = 1
      · simp only [h1, if_true] at h
        cases hz : c.zlib (raw.drop n) with
        | error e => rw [hz] at h; cases h
        | ok d =>
          rw [hz] at h
          obtain ⟨rfl, hn⟩ := fin d h
          exact ⟨_, hb, hn, Or.inl ⟨(num_iff _ _ _ _).mpr ⟨by omega, h1.symm⟩, hz⟩⟩
      · simp only [h1, if_false] at h
        by_cases h2 : field raw 0 4 = 2
        · simp only [h2, if_true] at h
          cases hz : c.zstd (raw.drop n) with
          | error e => rw [hz] at h; cases h
          | ok d =>
            rw [hz] at h
            obtain ⟨rfl, hn⟩ := fin d h
            exact ⟨_, hb, hn, Or.inr ⟨(num_iff _ _ _ _).mpr ⟨by omega, h2.symm⟩, hz⟩⟩
        · simp only [h2, if_false] at h; cases h
  cases bit32 with
  | true => exact key 12 4 4 (by omega) (by omega) h
  | false => exact key 24 8 8 (by omega) (by omega) h

/-- **C10** section data is the part of the file that the header describes, decompressed if
the section is flagged (`SHF_COMPRESSED`, bit 11) as compressed. -/
theorem C10_section_data (c : Codec) (b : Backend) (idx : Nat) (out : Bytes)
    (hr : sectionData c b idx = .ok out) :
    ∃ h l s, parseEhdr b = .ok h ∧ parseShdrs b = .ok l ∧ l[idx]? = some s ∧
      if s.flags / 2048 % 2 = 1 ∧ s.type ≠ 8 then
        ∃ raw, ContentsAre b.data s raw ∧ Decompresses c h.ehdr.bit32 raw out
      else ContentsAre b.data s out := by
  obtain ⟨s, h1, h2⟩ := (bind_ok_iff _ _ _).mp hr
  obtain ⟨l, h3, h4⟩ := sectionHdr_ok h1
  obtain ⟨h, h5, _⟩ := (bind_ok_iff _ _ _).mp h3
  refine ⟨h, l, s, h5, h3, h4, ?_⟩
  split at h2
  · rename_i ht
    obtain ⟨raw, h6, h7⟩ := (bind_ok_iff _ _ _).mp h2
    have hc := contents_of_read ht h6
    split at h7
    · rename_i hf
      rw [if_pos ⟨(shf_compressed _).mp hf, ht⟩]
      obtain ⟨h', h8, h9⟩ := (bind_ok_iff _ _ _).mp h7
      rw [h5] at h8; cases h8
      exact ⟨raw, hc, decompress_ok h9⟩
    · rename_i hf
      rw [if_neg (fun x => hf ((shf_compressed _).mpr x.1))]
      cases h7
      exact hc
  · rename_i ht
    cases h2
    have ht : s.type = 8 := not_not.mp ht
    rw [if_neg (fun x => x.2 ht)]
    left; exact ⟨Or.inl ht, rfl⟩

/-- The section name string table: the section with the index stored in the header, or for
the escape value (0xffff) in `sh_link` of the first section header. -/
def NameTableIs (b : Backend) (h : EhdrExt) (strs : Bytes) : Prop :=
  ∃ i, sectionDataRaw b i = .ok strs ∧
    ((h.ehdr.shstrndx ≠ 0xffff ∧ i = h.ehdr.shstrndx) ∨
     (h.ehdr.shstrndx = 0xffff ∧ ∃ s, ShdrAt h.ehdr.bit32 b.data h.ehdr.shoff s ∧ i = s.link))

/-- **C10** the name of a section is the NUL terminated UTF-8 string that its header points
to in the section name string table. -/
theorem C10_section_name (b : Backend) (idx : Nat) (name : Bytes)
    (hr : sectionName b idx = .ok name) :
    ∃ h l s strs, parseEhdr b = .ok h ∧ parseShdrs b = .ok l ∧ l[idx]? = some s ∧
      NameTableIs b h strs ∧ NameAt strs s.name name ∧ isUtf8 name = true := by
  obtain ⟨s, h1, h2⟩ := (bind_ok_iff _ _ _).mp hr
  obtain ⟨l, h3, h4⟩ := sectionHdr_ok h1
  obtain ⟨strs, h5, h6⟩ := (bind_ok_iff _ _ _).mp h2
  obtain ⟨n, h7, h8⟩ := (bind_ok_iff _ _ _).mp h6
  obtain ⟨h, h9, h10⟩ := (bind_ok_iff _ _ _).mp h5
  obtain ⟨i, h11, h12⟩ := (bind_ok_iff _ _ _).mp h10
  split at h8
  · cases h8
    refine ⟨h, l, s, strs, h9, h3, h4, ⟨i, h12, ?_⟩, (cstrAt_ok _ _ _).mp h7, by assumption⟩
    unfold shstrndx at h11
    split at h11
    · rename_i hx
      obtain ⟨f, h13, h14⟩ := (bind_ok_iff _ _ _).mp h11
      cases h14
      exact Or.inr ⟨hx, f, readFirstShdr_ok h13, rfl⟩
    · rename_i hx
      cases h11
      exact Or.inl ⟨hx, rfl⟩
  · cases h8

theorem findSectionLoop_some {b : Backend} {name : Bytes} {n i j : Nat}
    (h : findSectionLoop b name n i = .ok (some j)) :
    i ≤ j ∧ j < i + n ∧ sectionName b j = .ok name ∧
      ∀ k, i ≤ k → k < j → ∃ s, sectionName b k = .ok s ∧ s ≠ name := by
  induction n generalizing i with
  | zero => simp [findSectionLoop] at h
  | succ n ih =>
    simp only [findSectionLoop] at h
    cases hs : sectionName b i with
    | error e => rw [hs] at h; cases h
    | ok s =>
      rw [hs] at h
      simp only at h
      split at h
      · cases h
        rename_i hn
        exact ⟨le_refl _, by omega, by rw [hs, hn], fun k h1 h2 => by omega⟩
      · rename_i hn
        obtain ⟨h1, h2, h3, h4⟩ := ih h
        refine ⟨by omega, by omega, h3, fun k hk1 hk2 => ?_⟩
        rcases Nat.eq_or_lt_of_le hk1 with rfl | hk
        · exact ⟨s, hs, hn⟩
        · exact h4 k hk hk2

theorem findSectionLoop_none {b : Backend} {name : Bytes} {n i : Nat}
    (h : findSectionLoop b name n i = .ok none) :
    ∀ k, i ≤ k → k < i + n → ∃ s, sectionName b k = .ok s ∧ s ≠ name := by
  induction n generalizing i with
  | zero => intro k h1 h2; omega
  | succ n ih =>
    simp only [findSectionLoop] at h
    cases hs : sectionName b i with
    | error e => rw [hs] at h; cases h
    | ok s =>
      rw [hs] at h
      simp only at h
      split at h
      · cases h
      · rename_i hn
        intro k hk1 hk2
        rcases Nat.eq_or_lt_of_le hk1 with rfl | hk
        · exact ⟨s, hs, hn⟩
        · exact ih h k hk (by omega)

/-- **C10** searching a section by name yields the first section (other than the null
section 0) of that name. -/
theorem C10_find_section (b : Backend) (name : Bytes) (j : Nat)
    (hr : findSection b name = .ok (some j)) :
    ∃ h, parseEhdr b = .ok h ∧ 1 ≤ j ∧ j < h.shnum ∧ sectionName b j = .ok name ∧
      ∀ k, 1 ≤ k → k < j → ∃ s, sectionName b k = .ok s ∧ s ≠ name := by
  obtain ⟨h, h1, h2⟩ := (bind_ok_iff _ _ _).mp hr
  obtain ⟨a, b', c, d⟩ := findSectionLoop_some h2
  exact ⟨h, h1, a, by omega, c, d⟩

/-- **C10** if the search reports that there is no such section, then no section has that
name. -/
theorem C10_find_section_none (b : Backend) (name : Bytes) (hr : findSection b name = .ok none) :
    ∃ h, parseEhdr b = .ok h ∧
      ∀ k, 1 ≤ k → k < h.shnum → ∃ s, sectionName b k = .ok s ∧ s ≠ name := by
  obtain ⟨h, h1, h2⟩ := (bind_ok_iff _ _ _).mp hr
  refine ⟨h, h1, fun k hk1 hk2 => findSectionLoop_none h2 k hk1 (by omega)⟩

/-- A section whose bytes are a symbol table. -/
def SymbolsOf (b : Backend) (bit32 : Bool) (s : Shdr) (syms : List Sym) : Prop :=
  if s.type = 8 then syms = []
  else syms.length * symSize bit32 = s.size ∧
    ∀ i y, syms[i]? = some y → SymAt bit32 b.data (s.offset + i * symSize bit32) y

theorem parseSectionData_syms {b : Backend} {idx : Nat} {syms : List Sym}
    (hr : parseSectionData symLayout b idx = .ok syms) :
    ∃ h l s, parseEhdr b = .ok h ∧ parseShdrs b = .ok l ∧ l[idx]? = some s ∧
      SymbolsOf b h.ehdr.bit32 s syms := by
  obtain ⟨h, h1, hr⟩ := (bind_ok_iff _ _ _).mp hr
  obtain ⟨s, h2, hr⟩ := (bind_ok_iff _ _ _).mp hr
  obtain ⟨l, h3, h4⟩ := sectionHdr_ok h2
  refine ⟨h, l, s, h1, h3, h4, ?_⟩
  unfold SymbolsOf
  split at hr
  · cases hr
    rw [if_pos (by assumption)]
  · rename_i ht
    rw [if_neg (show ¬ s.type = 8 from ht)]
    have hsz : symSize h.ehdr.bit32 = symLayout.size h.ehdr.bit32 := rfl
    simp only at hr
    split at hr
    · cases hr
    · rename_i hm
      have hm : s.size % symLayout.size h.ehdr.bit32 = 0 := by simpa using hm
      have hdm := Nat.div_add_mod s.size (symLayout.size h.ehdr.bit32)
      split at hr
      · rename_i hc
        cases hr
        refine ⟨?_, by simp⟩
        rw [hc, hm] at hdm
        simpa using hdm
      · obtain ⟨h5, h6⟩ := readTable_ok (sym_pos _) hr
        refine ⟨?_, fun i y hy => ?_⟩
        · rw [h5, hsz, Nat.mul_comm]; omega
        · obtain ⟨h7, rfl⟩ := h6 i y hy
          exact symAt_decode h7

/-- What is parsed as the symbols of the section called `sec`. -/
def SymbolsFrom (b : Backend) (sec : Bytes) (syms : List Sym) : Prop :=
  (findSection b sec = .ok none ∧ syms = []) ∨
  ∃ idx h l s, findSection b sec = .ok (some idx) ∧ parseEhdr b = .ok h ∧ parseShdrs b = .ok l ∧
    l[idx]? = some s ∧ SymbolsOf b h.ehdr.bit32 s syms

/-- What is parsed as the contents of the section called `sec`. -/
def StringsFrom (b : Backend) (sec : Bytes) (strs : Bytes) : Prop :=
  (findSection b sec = .ok none ∧ strs = []) ∨
  ∃ idx l s, findSection b sec = .ok (some idx) ∧ parseShdrs b = .ok l ∧ l[idx]? = some s ∧
    ContentsAre b.data s strs

theorem parseSyms_ok {b : Backend} {sec : Bytes} {syms : List Sym} (hr : parseSyms b sec = .ok syms) :
    SymbolsFrom b sec syms := by
  obtain ⟨_, _, hr⟩ := (bind_ok_iff _ _ _).mp hr
  obtain ⟨o, h1, hr⟩ := (bind_ok_iff _ _ _).mp hr
  cases o with
  | none => cases hr; exact Or.inl ⟨h1, rfl⟩
  | some idx =>
    obtain ⟨h, l, s, h2, h3, h4, h5⟩ := parseSectionData_syms hr
    exact Or.inr ⟨idx, h, l, s, h1, h2, h3, h4, h5⟩

theorem parseStrs_ok {b : Backend} {sec : Bytes} {strs : Bytes} (hr : parseStrs b sec = .ok strs) :
    StringsFrom b sec strs := by
  obtain ⟨o, h1, hr⟩ := (bind_ok_iff _ _ _).mp hr
  cases o with
  | none => cases hr; exact Or.inl ⟨h1, rfl⟩
  | some idx =>
    obtain ⟨l, s, h2, h3, h4⟩ := C10_section_data_raw b idx strs hr
    exact Or.inr ⟨idx, l, s, h1, h2, h3, h4⟩

/-- **C10** the symbols and names that lookups consult are the entries of `.symtab` and the
contents of `.strtab`; if there are no such symbols, those of the (xz compressed) ELF file
embedded in `.gnu_debugdata`. -/
theorem C10_symtab (c : Codec) (b : Backend) (t : SymTab) (hr : parseSymtab c b = .ok t) :
    (SymbolsFrom b (ascii ".symtab") t.syms ∧ StringsFrom b (ascii ".strtab") t.strs) ∨
    (SymbolsFrom b (ascii ".symtab") [] ∧
      ∃ xz inner, StringsFrom b (ascii ".gnu_debugdata") xz ∧ c.xz xz = .ok inner ∧
        SymbolsFrom (.mem c.heap inner) (ascii ".symtab") t.syms ∧
        StringsFrom (.mem c.heap inner) (ascii ".strtab") t.strs) := by
  have e1 : ascii ".symtab" = nameSymtab := by decide
  have e2 : ascii ".strtab" = nameStrtab := by decide
  have e3 : ascii ".gnu_debugdata" = nameDebugdata := by decide
  rw [e1, e2, e3]
  obtain ⟨syms, h1, hr⟩ := (bind_ok_iff _ _ _).mp hr
  obtain ⟨strs, h2, hr⟩ := (bind_ok_iff _ _ _).mp hr
  have s1 := parseSyms_ok h1
  have s2 := parseStrs_ok h2
  split at hr
  · rename_i hem
    have hem : syms = [] := by simpa using hem
    obtain ⟨data, h3, hr⟩ := (bind_ok_iff _ _ _).mp hr
    split at hr
    · cases hr; exact Or.inl ⟨s1, s2⟩
    · rename_i hne
      obtain ⟨syms', h4, hr⟩ := (bind_ok_iff _ _ _).mp hr
      obtain ⟨strs', h5, hr⟩ := (bind_ok_iff _ _ _).mp hr
      cases hr
      right
      refine ⟨hem ▸ s1, ?_⟩
      obtain ⟨o, h6, h7⟩ := (bind_ok_iff _ _ _).mp h3
      cases o with
      | none => cases h7; simp at hne
      | some idx =>
        obtain ⟨xz, h8, h9⟩ := (bind_ok_iff _ _ _).mp h7
        obtain ⟨l, s, h10, h11, h12⟩ := C10_section_data_raw b idx xz h8
        exact ⟨xz, data, Or.inr ⟨idx, l, s, h6, h10, h11, h12⟩, h9, parseSyms_ok h4, parseStrs_ok h5⟩
  · cases hr; exact Or.inl ⟨s1, s2⟩

/-- **C10** likewise for `.dynsym` and `.dynstr`. -/
theorem C10_dynsym (b : Backend) (t : SymTab) (hr : parseDynsym b = .ok t) :
    SymbolsFrom b (ascii ".dynsym") t.syms ∧ StringsFrom b (ascii ".dynstr") t.strs := by
  have e1 : ascii ".dynsym" = nameDynsym := by decide
  have e2 : ascii ".dynstr" = nameDynstr := by decide
  rw [e1, e2]
  obtain ⟨syms, h1, hr⟩ := (bind_ok_iff _ _ _).mp hr
  obtain ⟨strs, h2, hr⟩ := (bind_ok_iff _ _ _).mp hr
  cases hr
  exact ⟨parseSyms_ok h1, parseStrs_ok h2⟩

/-! ### Well-formed files are accepted -/

/-- **C10** a file with the magic, a class, a whole header and ordinary section and program
header counts is accepted (in memory: if the image is 8 byte aligned, as mappings are). -/
theorem C10_header_accepted (b : Backend) (e : Ehdr) (hd : b.data.length ≤ isizeMax)
    (ha : AlignedAt b 0 8) (he : EhdrAt b.data e) (hl : (if e.bit32 then 52 else 64) ≤ b.data.length)
    (hs : e.shnum ≠ 0) (hp : e.phnum ≠ 0xffff) :
    parseEhdr b = .ok ⟨e, e.shnum, e.phnum⟩ := by
  obtain ⟨hm, hf⟩ := he
  obtain ⟨_, hm⟩ := (isSlice_iff _ _ _ _).mp hm
  have hlen : 16 ≤ b.data.length := by split at hl <;> omega
  have hA1 : AlignedAt b 0 1 := by cases b <;> simp [AlignedAt, Nat.mod_one]
  have hA4 : AlignedAt b 0 4 := by
    cases b
    · simp only [AlignedAt] at ha ⊢; omega
    · trivial
  unfold parseEhdr
  rw [readSlice_complete hd (by omega) hA1]
  simp only [bind, Except.bind]
  have f (k : Nat) (hk : k < 16) : field (List.take (1 * 16) (List.drop 0 b.data)) k 1 = field b.data k 1 := by
    rw [field_sub _ _ _ _ _ (by omega)]; simp
  rw [f 0 (by omega), f 1 (by omega), f 2 (by omega), f 3 (by omega), f 4 (by omega)]
  have g (k : Nat) (hk : k < 4) : field b.data k 1 = field [0x7f, 0x45, 0x4c, 0x46] k 1 := by
    rw [hm, field_sub _ _ _ _ _ (by omega)]; simp
  rw [if_neg (by rw [g 0 (by omega), g 1 (by omega), g 2 (by omega), g 3 (by omega)]; decide)]
  cases hb : e.bit32 with
  | true =>
    rw [hb] at hf hl
    simp only [if_true] at hf hl
    obtain ⟨n0, n1, n2, n3, n4, n5, n6⟩ := hf
    have hc := ((num_iff _ _ _ _).mp n0).2
    rw [← hc]
    rw [if_neg (by decide)]
    have hrec : b.readRecord ehdrLayout (decide (1 = ELFCLASS32)) 0 = .ok e := by
      rw [show decide (1 = ELFCLASS32) = true from rfl]
      unfold Backend.readRecord
      rw [readObj_complete (size := ehdrLayout.size true) (a := ehdrLayout.align true) hd
        (by show 0 + 52 ≤ _; omega) hA4]
      simp only [bind, Except.bind, pure, Except.pure]
      congr 1
      have q (k w v : Nat) (hk : k + w ≤ 52) (hn : Num b.data k w v) :
          field (List.take (ehdrLayout.size true) (List.drop 0 b.data)) k w = v := by
        rw [((num_iff _ _ _ _).mp hn).2]
        rw [field_sub _ _ _ _ _ (by show _ ≤ 52; omega)]; simp
      show decodeEhdr32 _ = e
      unfold decodeEhdr32
      rw [q _ _ _ (by omega) n1, q _ _ _ (by omega) n2, q _ _ _ (by omega) n3, q _ _ _ (by omega) n4,
        q _ _ _ (by omega) n5, q _ _ _ (by omega) n6, ← hb]
    rw [hrec]
    simp only [realShnum, realPhnum]
    rw [if_neg hs, if_neg (show ¬ e.phnum = PN_XNUM from hp)]
    rfl
  | false =>
    rw [hb] at hf hl
    simp only [Bool.false_eq_true, if_false] at hf hl
    obtain ⟨n0, n1, n2, n3, n4, n5, n6⟩ := hf
    have hc := ((num_iff _ _ _ _).mp n0).2
    rw [← hc]
    rw [if_neg (by decide)]
    have hrec : b.readRecord ehdrLayout (decide (2 = ELFCLASS32)) 0 = .ok e := by
      rw [show decide (2 = ELFCLASS32) = false from rfl]
      unfold Backend.readRecord
      rw [readObj_complete (size := ehdrLayout.size false) (a := ehdrLayout.align false) hd
        (by show 0 + 64 ≤ _; omega) ha]
      simp only [bind, Except.bind, pure, Except.pure]
      congr 1
      have q (k w v : Nat) (hk : k + w ≤ 64) (hn : Num b.data k w v) :
          field (List.take (ehdrLayout.size false) (List.drop 0 b.data)) k w = v := by
        rw [((num_iff _ _ _ _).mp hn).2]
        rw [field_sub _ _ _ _ _ (by show _ ≤ 64; omega)]; simp
      show decodeEhdr64 _ = e
      unfold decodeEhdr64
      rw [q _ _ _ (by omega) n1, q _ _ _ (by omega) n2, q _ _ _ (by omega) n3, q _ _ _ (by omega) n4,
        q _ _ _ (by omega) n5, q _ _ _ (by omega) n6, ← hb]
    rw [hrec]
    simp only [realShnum, realPhnum]
    rw [if_neg hs, if_neg (show ¬ e.phnum = PN_XNUM from hp)]
    rfl

/-- **C10** header tables that fit into the file and are aligned are accepted. -/
theorem C10_tables_accepted (b : Backend) (h : EhdrExt) (hr : parseEhdr b = .ok h)
    (hd : b.data.length ≤ isizeMax) :
    (h.ehdr.shoff + h.shnum * shdrSize h.ehdr.bit32 ≤ b.data.length →
      AlignedAt b h.ehdr.shoff (if h.ehdr.bit32 then 4 else 8) → ∃ l, parseShdrs b = .ok l) ∧
    (h.ehdr.phoff + h.phnum * phdrSize h.ehdr.bit32 ≤ b.data.length →
      AlignedAt b h.ehdr.phoff (if h.ehdr.bit32 then 4 else 8) → ∃ l, parsePhdrs b = .ok l) := by
  constructor
  · intro hf ha
    unfold parseShdrs
    rw [hr]
    exact readTable_complete hd (by rw [Nat.mul_comm]; exact hf) ha
  · intro hf ha
    unfold parsePhdrs
    rw [hr]
    exact readTable_complete hd (by rw [Nat.mul_comm]; exact hf) ha

/-- **C10** a section whose extent lies in the file can be read. -/
theorem C10_section_data_accepted (b : Backend) (l : List Shdr) (s : Shdr) (idx : Nat)
    (hl : parseShdrs b = .ok l) (hs : l[idx]? = some s) (hd : b.data.length ≤ isizeMax)
    (hf : s.type = 8 ∨ s.offset + s.size ≤ b.data.length) : ∃ out, sectionDataRaw b idx = .ok out := by
  unfold sectionDataRaw sectionHdr
  rw [hl]
  simp only [bind, Except.bind, hs]
  by_cases ht : s.type = 8
  · rw [if_neg (by simp [ht, SHT_NOBITS])]; exact ⟨_, rfl⟩
  · rw [if_pos (show s.type ≠ SHT_NOBITS from ht)]
    rw [readSlice_complete hd (by rw [Nat.one_mul]; omega) (by cases b <;> simp [AlignedAt, Nat.mod_one])]
    exact ⟨_, rfl⟩

/-! ### Malformed files in memory do not cause panics -/

section NoPanic
variable {addr : Nat} {d : Bytes}

theorem parseEhdr_err {e : Err} (h : parseEhdr (.mem addr d) = .error e) : e ≠ .panic := by
  have hsh (x : Ehdr) (e : Err) (h : realShnum (.mem addr d) x = .error e) : e ≠ .panic := by
    unfold realShnum at h
    split at h
    · rcases bind_err h with h | ⟨a, _, h⟩
      · exact readRecord_err h
      · cases h
    · cases h
  have hph (x : Ehdr) (e : Err) (h : realPhnum (.mem addr d) x = .error e) : e ≠ .panic := by
    unfold realPhnum at h
    split at h
    · rcases bind_err h with h | ⟨a, _, h⟩
      · exact readRecord_err h
      · cases h
    · cases h
  rcases bind_err h with h | ⟨i, _, h⟩
  · exact readSlice_err h
  · split at h
    · cases h; decide
    · simp only at h
      split at h
      · cases h; decide
      · rcases bind_err h with h | ⟨_, _, h⟩
        · exact readRecord_err h
        · rcases bind_err h with h | ⟨_, _, h⟩
          · exact hsh _ _ h
          · rcases bind_err h with h | ⟨_, _, h⟩
            · exact hph _ _ h
            · cases h

theorem parseShdrs_err {e : Err} (h : parseShdrs (.mem addr d) = .error e) : e ≠ .panic := by
  rcases bind_err h with h | ⟨_, _, h⟩
  · exact parseEhdr_err h
  · exact readTable_err h

theorem parsePhdrs_err {e : Err} (h : parsePhdrs (.mem addr d) = .error e) : e ≠ .panic := by
  rcases bind_err h with h | ⟨_, _, h⟩
  · exact parseEhdr_err h
  · exact readTable_err h

theorem sectionHdr_err {i : Nat} {e : Err} (h : sectionHdr (.mem addr d) i = .error e) : e ≠ .panic := by
  rcases bind_err h with h | ⟨_, _, h⟩
  · exact parseShdrs_err h
  · split at h
    · cases h
    · cases h; decide

theorem sectionDataRaw_err {i : Nat} {e : Err} (h : sectionDataRaw (.mem addr d) i = .error e) :
    e ≠ .panic := by
  rcases bind_err h with h | ⟨_, _, h⟩
  · exact sectionHdr_err h
  · split at h
    · exact readSlice_err h
    · cases h

theorem cstrAt_err {strs : Bytes} {off : Nat} {e : Err} (h : cstrAt strs off = .error e) :
    e ≠ .panic := by
  unfold cstrAt at h
  split at h
  · split at h <;> cases h
    decide
  · cases h; decide

theorem sectionName_err {i : Nat} {e : Err} (h : sectionName (.mem addr d) i = .error e) :
    e ≠ .panic := by
  rcases bind_err h with h | ⟨_, _, h⟩
  · exact sectionHdr_err h
  · rcases bind_err h with h | ⟨_, _, h⟩
    · rcases bind_err h with h | ⟨_, _, h⟩
      · exact parseEhdr_err h
      · rcases bind_err h with h | ⟨_, _, h⟩
        · unfold shstrndx at h
          split at h
          · rcases bind_err h with h | ⟨_, _, h⟩
            · exact readRecord_err h
            · cases h
          · cases h
        · exact sectionDataRaw_err h
    · rcases bind_err h with h | ⟨_, _, h⟩
      · exact cstrAt_err h
      · split at h <;> cases h
        decide

theorem findSection_err {name : Bytes} {e : Err} (h : findSection (.mem addr d) name = .error e) :
    e ≠ .panic := by
  rcases bind_err h with h | ⟨x, _, h⟩
  · exact parseEhdr_err h
  · revert h
    generalize x.shnum - 1 = n
    generalize 1 = i
    induction n generalizing i with
    | zero => intro h; cases h
    | succ n ih =>
      intro h
      simp only [findSectionLoop] at h
      split at h
      · cases h
        exact sectionName_err (by assumption)
      · split at h
        · cases h
        · exact ih _ h

theorem parseSyms_err {sec : Bytes} {e : Err} (h : parseSyms (.mem addr d) sec = .error e) :
    e ≠ .panic := by
  rcases bind_err h with h | ⟨_, _, h⟩
  · exact parseEhdr_err h
  · rcases bind_err h with h | ⟨o, _, h⟩
    · exact findSection_err h
    · cases o with
      | none => cases h
      | some i =>
        rcases bind_err h with h | ⟨_, _, h⟩
        · exact parseEhdr_err h
        · rcases bind_err h with h | ⟨_, _, h⟩
          · exact sectionHdr_err h
          · split at h
            · cases h
            · simp only at h
              split at h
              · cases h; decide
              · split at h
                · cases h
                · exact readTable_err h

theorem parseStrs_err {sec : Bytes} {e : Err} (h : parseStrs (.mem addr d) sec = .error e) :
    e ≠ .panic := by
  rcases bind_err h with h | ⟨o, _, h⟩
  · exact findSection_err h
  · cases o with
    | none => cases h
    | some i => exact sectionDataRaw_err h

/-- **C10** on an image in memory (all files the symbolizer reads) parsing reports malformed
contents as an error and never panics, whatever the bytes.
Partial: compressed sections (`C10_wrong_compressed_size_panics`) and the file backend (`C10_file_backend_panics`), for which it is false. -/
theorem C10_no_panic_partial (c : Codec) (hxz : ∀ x, c.xz x ≠ .error .panic) :
    (File.ofImage c (.mem addr d)).shdrs ≠ .error .panic ∧
    (File.ofImage c (.mem addr d)).phdrs ≠ .error .panic ∧
    (File.ofImage c (.mem addr d)).symtab ≠ .error .panic ∧
    (File.ofImage c (.mem addr d)).dynsym ≠ .error .panic ∧
    (∀ name, findSection (.mem addr d) name ≠ .error .panic) ∧
    (∀ i, sectionDataRaw (.mem addr d) i ≠ .error .panic) := by
  refine ⟨fun h => parseShdrs_err h rfl, fun h => parsePhdrs_err h rfl, fun h => ?_, fun h => ?_,
    fun n h => findSection_err h rfl, fun i h => sectionDataRaw_err h rfl⟩
  · rcases bind_err h with h | ⟨_, _, h⟩
    · exact parseSyms_err h rfl
    · rcases bind_err h with h | ⟨_, _, h⟩
      · exact parseStrs_err h rfl
      · split at h
        · rcases bind_err h with h | ⟨_, _, h⟩
          · rcases bind_err h with h | ⟨o, _, h⟩
            · exact findSection_err h rfl
            · cases o with
              | none => cases h
              | some i =>
                rcases bind_err h with h | ⟨_, _, h⟩
                · exact sectionDataRaw_err h rfl
                · exact hxz _ h
          · split at h
            · cases h
            · rcases bind_err h with h | ⟨_, _, h⟩
              · exact parseSyms_err h rfl
              · rcases bind_err h with h | ⟨_, _, h⟩
                · exact parseStrs_err h rfl
                · cases h
        · cases h
  · rcases bind_err h with h | ⟨_, _, h⟩
    · exact parseSyms_err h rfl
    · rcases bind_err h with h | ⟨_, _, h⟩
      · exact parseStrs_err h rfl
      · cases h

end NoPanic

/-! ### Deviations -/

/-- **C10** (negative) for the file backend (`/proc/kcore`) an excessive number of section
headers makes the parser panic (capacity overflow) instead of returning an error. -/
theorem C10_file_backend_panics (d : Bytes) (h : EhdrExt) (hr : parseEhdr (.file d) = .ok h)
    (ho : h.ehdr.shoff ≤ isizeMax) (hn : 2 ^ 63 ≤ h.shnum * shdrSize h.ehdr.bit32) :
    parseShdrs (.file d) = .error .panic := by
  unfold parseShdrs
  rw [hr]
  simp only [bind, Except.bind, Backend.readTable, Backend.readSlice]
  rw [if_neg (by omega), if_pos]
  have : shdrLayout.size h.ehdr.bit32 * h.shnum = h.shnum * shdrSize h.ehdr.bit32 := Nat.mul_comm _ _
  rw [this]; unfold isizeMax; omega

/-- **C10** (negative) a 64 bit file without section header table (`e_shoff` and `e_shnum` 0)
is not treated as having no sections: its section count is taken from the bytes of the file
header itself, namely `e_phoff`. -/
theorem C10_no_section_headers (b : Backend) (h : EhdrExt) (hr : parseEhdr b = .ok h)
    (hb : h.ehdr.bit32 = false) (h0 : h.ehdr.shnum = 0) (ho : h.ehdr.shoff = 0) :
    h.shnum = h.ehdr.phoff := by
  obtain ⟨⟨_, he⟩, _, hc, _⟩ := C10_header b h hr
  rw [if_neg (by rw [hb]; decide)] at he
  obtain ⟨s, hs, hn⟩ := hc h0
  rw [hb, ho] at hs
  simp only [ShdrAt, Bool.false_eq_true, if_false] at hs
  rw [hn, ((num_iff _ _ _ _).mp hs.2.2.2.2.2.1).2, ((num_iff _ _ _ _).mp he.2.2.1).2]

/-- **C10** (negative) a compressed section whose header announces a size that differs from
what decompression yields makes the parser panic (`debug_assert`). -/
theorem C10_wrong_compressed_size_panics (c : Codec) (raw body out : Bytes)
    (hs : IsSlice raw 24 (raw.length - 24) body) (hz : Num raw 0 4 1) (hc : c.zlib body = .ok out)
    (hn : ¬ Num raw 8 8 out.length) : decompress c false raw = .error .panic := by
  obtain ⟨h1, rfl⟩ := (isSlice_iff _ _ _ _).mp hs
  have h2 : (raw.drop 24).take (raw.length - 24) = raw.drop 24 := by
    rw [List.take_of_length_le]; simp
  rw [h2] at hc
  unfold decompress
  simp only [Bool.false_eq_true, if_false]
  rw [if_neg (by omega), if_pos ((num_iff _ _ _ _).mp hz).2.symm, hc]
  simp only
  rw [if_neg]
  intro hl
  exact hn ((num_iff _ _ _ _).mpr ⟨by omega, hl⟩)

theorem decompress_panic {c : Codec} {bit32 : Bool} {raw : Bytes}
    (hz : ∀ x, c.zlib x ≠ .error .panic) (hz' : ∀ x, c.zstd x ≠ .error .panic)
    (h : decompress c bit32 raw = .error .panic) :
    ∃ out, (c.zlib (raw.drop (if bit32 then 12 else 24)) = .ok out ∨
        c.zstd (raw.drop (if bit32 then 12 else 24)) = .ok out) ∧
      ¬ Num raw (if bit32 then 4 else 8) (if bit32 then 4 else 8) out.length := by
  have key (n w k : Nat)
      (h : (if raw.length < n then Except.error Err.invalidData
        else match (if field raw 0 4 = 1 then c.zlib (raw.drop n)
          else if field raw 0 4 = 2 then c.zstd (raw.drop n) else .error .unsupported) with
        | .error e => .error e
        | .ok d => if d.length = field raw k w then .ok d else .error .panic) = .error .panic) :
      ∃ out, (c.zlib (raw.drop n) = .ok out ∨ c.zstd (raw.drop n) = .ok out) ∧ ¬ Num raw k w out.length := by
    by_cases hl : raw.length < n
    · rw [if_pos hl] at h; cases h
    · rw [if_neg hl] at h
      have fin (d : Bytes)
          (h : (if d.length = field raw k w then Except.ok d else Except.error Err.panic) = .error .panic) :
          ¬ Num raw k w d.length := by
        split at h
        · cases h
        · rename_i hne
          exact fun hn => hne ((num_iff _ _ _ _).mp hn).2
      by_cases h1 : field raw 0 4 = 1
      · simp only [h1, if_true] at h
        cases hq : c.zlib (raw.drop n) with
        | error e => rw [hq] at h; cases h; exact absurd hq (hz _)
        | ok d => rw [hq] at h; exact ⟨d, Or.inl rfl, fin d h⟩
      · simp only [h1, if_false] at h
        by_cases h2 : field raw 0 4 = 2
        · simp only [h2, if_true] at h
          cases hq : c.zstd (raw.drop n) with
          | error e => rw [hq] at h; cases h; exact absurd hq (hz' _)
          | ok d => rw [hq] at h; exact ⟨d, Or.inr rfl, fin d h⟩
        · simp only [h2, if_false] at h; cases h
  cases bit32 with
  | true => exact key 12 4 4 h
  | false => exact key 24 8 8 h

/-- **C10** that is the only way in which reading section data can panic. -/
theorem C10_section_data_no_other_panic (c : Codec) (addr : Nat) (d : Bytes) (idx : Nat)
    (hz : ∀ x, c.zlib x ≠ .error .panic) (hz' : ∀ x, c.zstd x ≠ .error .panic)
    (h : sectionData c (.mem addr d) idx = .error .panic) :
    ∃ e l s raw out, parseEhdr (.mem addr d) = .ok e ∧ parseShdrs (.mem addr d) = .ok l ∧
      l[idx]? = some s ∧ s.flags / 2048 % 2 = 1 ∧ ContentsAre d s raw ∧
      (c.zlib (raw.drop (if e.ehdr.bit32 then 12 else 24)) = .ok out ∨
        c.zstd (raw.drop (if e.ehdr.bit32 then 12 else 24)) = .ok out) ∧
      ¬ Num raw (if e.ehdr.bit32 then 4 else 8) (if e.ehdr.bit32 then 4 else 8) out.length := by
  rcases bind_err h with h | ⟨s, h1, h⟩
  · exact absurd rfl (sectionHdr_err h)
  · obtain ⟨l, h3, h4⟩ := sectionHdr_ok h1
    split at h
    · rename_i ht
      rcases bind_err h with h | ⟨raw, h6, h⟩
      · exact absurd rfl (readSlice_err h)
      · split at h
        · rename_i hf
          rcases bind_err h with h | ⟨x, h7, h⟩
          · exact absurd rfl (parseEhdr_err h)
          · obtain ⟨out, h8, h9⟩ := decompress_panic hz hz' h
            exact ⟨x, l, s, raw, out, h7, h3, h4, (shf_compressed _).mp hf,
              contents_of_read ht h6, h8, h9⟩
        · cases h
    · cases h

/-! ### A concrete file -/

/-- A small 64 bit shared object: one program header, sections `.shstrtab`, `.symtab` (null
symbol and the function `f` at 0x1000, 16 bytes) and `.strtab`. -/
def tinyElf : Bytes :=
  [127, 69, 76, 70, 2, 1, 1, 0, 0, 0, 0, 0, 0, 0, 0, 0, 3, 0, 62, 0, 1, 0, 0, 0, 0, 0, 0, 0, 0, 0,
   0, 0, 64, 0, 0, 0, 0, 0, 0, 0, 208, 0, 0, 0, 0, 0, 0, 0, 0, 0, 0, 0, 64, 0, 56, 0, 1, 0, 64, 0,
   4, 0, 1, 0, 1, 0, 0, 0, 5, 0, 0, 0, 0, 0, 0, 0, 0, 0, 0, 0, 0, 16, 0, 0, 0, 0, 0, 0, 0, 16, 0,
   0, 0, 0, 0, 0, 120, 0, 0, 0, 0, 0, 0, 0, 120, 0, 0, 0, 0, 0, 0, 0, 0, 16, 0, 0, 0, 0, 0, 0, 0,
   102, 0, 0, 0, 0, 0, 0, 0, 0, 0, 0, 0, 0, 0, 0, 0, 0, 0, 0, 0, 0, 0, 0, 0, 0, 0, 0, 0, 0, 0, 0,
   1, 0, 0, 0, 18, 0, 1, 0, 0, 16, 0, 0, 0, 0, 0, 0, 16, 0, 0, 0, 0, 0, 0, 0, 0, 46, 115, 104,
   115, 116, 114, 116, 97, 98, 0, 46, 115, 121, 109, 116, 97, 98, 0, 46, 115, 116, 114, 116, 97,
   98, 0, 0, 0, 0, 0, 0, 0, 0, 0, 0, 0, 0, 0, 0, 0, 0, 0, 0, 0, 0, 0, 0, 0, 0, 0, 0, 0, 0, 0, 0,
   0, 0, 0, 0, 0, 0, 0, 0, 0, 0, 0, 0, 0, 0, 0, 0, 0, 0, 0, 0, 0, 0, 0, 0, 0, 0, 0, 0, 0, 0, 0, 0,
   0, 0, 0, 0, 0, 0, 0, 0, 1, 0, 0, 0, 3, 0, 0, 0, 0, 0, 0, 0, 0, 0, 0, 0, 0, 0, 0, 0, 0, 0, 0, 0,
   176, 0, 0, 0, 0, 0, 0, 0, 27, 0, 0, 0, 0, 0, 0, 0, 0, 0, 0, 0, 0, 0, 0, 0, 1, 0, 0, 0, 0, 0, 0,
   0, 0, 0, 0, 0, 0, 0, 0, 0, 11, 0, 0, 0, 2, 0, 0, 0, 0, 0, 0, 0, 0, 0, 0, 0, 0, 0, 0, 0, 0, 0,
   0, 0, 128, 0, 0, 0, 0, 0, 0, 0, 48, 0, 0, 0, 0, 0, 0, 0, 3, 0, 0, 0, 1, 0, 0, 0, 8, 0, 0, 0, 0,
   0, 0, 0, 24, 0, 0, 0, 0, 0, 0, 0, 19, 0, 0, 0, 3, 0, 0, 0, 0, 0, 0, 0, 0, 0, 0, 0, 0, 0, 0, 0,
   0, 0, 0, 0, 120, 0, 0, 0, 0, 0, 0, 0, 3, 0, 0, 0, 0, 0, 0, 0, 0, 0, 0, 0, 0, 0, 0, 0, 1, 0, 0,
   0, 0, 0, 0, 0, 0, 0, 0, 0, 0, 0, 0, 0]

/-- No decompression available. -/
def noCodec : Codec :=
  ⟨fun _ => .error .unsupported, fun _ => .error .unsupported, fun _ => .error .unsupported, 0⟩

set_option maxRecDepth 20000 in
/-- The theorems above apply to it: it is accepted, in memory and as a file. -/
example : ∃ h, parseEhdr (.mem 4096 tinyElf) = .ok h ∧ parseEhdr (.file tinyElf) = .ok h ∧
    h.shnum = 4 ∧ h.phnum = 1 := ⟨⟨⟨false, 3, 64, 208, 1, 4, 1⟩, 4, 1⟩, by decide, by decide, rfl, rfl⟩

set_option maxRecDepth 20000 in
/-- A file cut off after the header: section headers are refused, not read. -/
example : parseShdrs (.mem 4096 (tinyElf.take 100)) = .error .invalidData := by decide

/-- 128 bytes: header with `e_shnum` 0 and `e_shoff` 64, section header 0 with a `sh_size` of
`2 ^ 63`. -/
def hugeElf : Bytes :=
  [127, 69, 76, 70, 2] ++ List.replicate 35 0 ++ [64] ++ List.replicate 62 0 ++ [128] ++
    List.replicate 24 0

set_option maxRecDepth 20000 in
example : (parseShdrs (.file hugeElf) = .error .panic) ∧
    (parseShdrs (.mem 4096 hugeElf) = .error .invalidData) := by decide

/-- A header with `e_phoff` 64 and no section header table claims 64 sections. -/
def noSections : Bytes := [127, 69, 76, 70, 2] ++ List.replicate 27 0 ++ [64] ++ List.replicate 31 0

set_option maxRecDepth 20000 in
example : (parseEhdr (.mem 4096 noSections)).map EhdrExt.shnum = .ok 64 ∧
    findSection (.mem 4096 noSections) (ascii ".symtab") = .error .invalidData := by decide

set_option maxRecDepth 20000 in
example : findSection (.mem 4096 tinyElf) (ascii ".symtab") = .ok (some 2) := by decide

set_option maxRecDepth 20000 in
example : parseSymtab noCodec (.mem 4096 tinyElf) =
    .ok ⟨[⟨0, 0, 0, 0, 0, 0⟩, ⟨1, 0x12, 0, 1, 0x1000, 0x10⟩], [0, 102, 0]⟩ := by decide

end Blazesym.Elf
