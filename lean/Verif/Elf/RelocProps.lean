import Verif.Elf.Reloc
import Verif.Elf.RelocSpec
import Verif.Elf.ImageProps

/-! Property theorem C54: the relocations applied to the sections of an object file. -/

set_option autoImplicit false

namespace Blazesym.Elf
open Blazesym.Util Blazesym.Spec Blazesym.Spec.Elf

/-! ### The maps -/

theorem relocated_append (rs : List Reloc) (r : Reloc) (t o v : Nat) :
    relocated (rs ++ [r]) t o v =
      if r.target = t ∧ r.offset = o then r.apply v else relocated rs t o v := by
  unfold relocated
  rw [List.filter_append]
  by_cases h : r.target = t ∧ r.offset = o
  · simp [h]
  · rw [if_neg h]
    simp [h]

/-- The maps hold the relocations of a list. -/
def Holds (m : SectionRelocs) (rs : List Reloc) : Prop :=
  ∀ t o v : Nat, (m t).relocate o v = relocated rs t o v

theorem holds_empty : Holds SectionRelocs.empty [] := fun _ _ _ => rfl

theorem relocate_insert (m : RelocMap) (off a : Nat) (i : Bool) (o v : Nat) :
    (m.insert off a i).relocate o v =
      if o = off then (if i then wrappingAdd v a else a) else m.relocate o v := by
  unfold RelocMap.relocate RelocMap.insert
  by_cases h : o = off
  · simp [h]
  · simp [h]

theorem holds_insert {m : SectionRelocs} {rs : List Reloc} (h : Holds m rs) (r : Reloc) (a : Nat)
    (i : Bool) (hi : ∀ v : Nat, (if i then wrappingAdd v a else a) = r.apply v) :
    Holds (m.update r.target fun x => x.insert r.offset a i) (rs ++ [r]) := by
  intro t o v
  rw [relocated_append]
  unfold SectionRelocs.update
  by_cases h1 : t = r.target
  · rw [if_pos h1, relocate_insert]
    by_cases h2 : o = r.offset
    · have hc : r.target = t ∧ r.offset = o := ⟨h1.symm, h2.symm⟩
      rw [if_pos h2, hi, if_pos hc]
    · rw [if_neg h2, if_neg (fun x => h2 x.2.symm), h]
  · rw [if_neg h1, if_neg (fun x => h1 x.1.symm), h]

theorem update_comp (m : SectionRelocs) (t : Nat) (f g : RelocMap → RelocMap) :
    m.update t (fun x => g (f x)) = (m.update t f).update t g := by
  funext u
  unfold SectionRelocs.update
  split <;> rfl

/-- What the entry `r` of a table with addends says. -/
def relaReloc (syms : List Sym) (t : Nat) (r : Rela) : Reloc :=
  ⟨t, r.offset, symValue syms r.info, some r.addend⟩

def relReloc (syms : List Sym) (t : Nat) (r : Rela) : Reloc :=
  ⟨t, r.offset, symValue syms r.info, none⟩

theorem holds_relas {syms : List Sym} {t : Nat} (l : List Rela) :
    ∀ {m : SectionRelocs} {rs : List Reloc}, Holds m rs →
      Holds (m.update t (insertRelas syms l)) (rs ++ l.map (relaReloc syms t)) := by
  induction l with
  | nil =>
    intro m rs h
    have : m.update t (insertRelas syms []) = m := by
      funext u; unfold SectionRelocs.update; split <;> rfl
    rw [this]; simpa using h
  | cons r l ih =>
    intro m rs h
    have e : m.update t (insertRelas syms (r :: l)) =
        (m.update t fun x => x.insert r.offset (wrappingAdd (symValue syms r.info) r.addend)
          false).update t (insertRelas syms l) := by
      rw [← update_comp]; rfl
    rw [e, List.map_cons, ← List.singleton_append, ← List.append_assoc]
    refine ih (holds_insert h (relaReloc syms t r) _ _ fun v => ?_)
    simp [relaReloc, Reloc.apply, wrappingAdd, u64Size]

theorem holds_rels {syms : List Sym} {t : Nat} (l : List Rela) :
    ∀ {m : SectionRelocs} {rs : List Reloc}, Holds m rs →
      Holds (m.update t (insertRels syms l)) (rs ++ l.map (relReloc syms t)) := by
  induction l with
  | nil =>
    intro m rs h
    have : m.update t (insertRels syms []) = m := by
      funext u; unfold SectionRelocs.update; split <;> rfl
    rw [this]; simpa using h
  | cons r l ih =>
    intro m rs h
    have e : m.update t (insertRels syms (r :: l)) =
        (m.update t fun x => x.insert r.offset (symValue syms r.info) true).update t
          (insertRels syms l) := by
      rw [← update_comp]; rfl
    rw [e, List.map_cons, ← List.singleton_append, ← List.append_assoc]
    refine ih (holds_insert h (relReloc syms t r) _ _ fun v => ?_)
    simp [relReloc, Reloc.apply, wrappingAdd, u64Size, Nat.add_comm]

/-! ### The tables -/

theorem parseSectionData_ok {α : Type} {ly : Layout α} (hpos : ∀ x : Bool, 0 < ly.size x)
    {b : Backend} {idx : Nat} {xs : List α} (hr : parseSectionData ly b idx = .ok xs) :
    ∃ h l s, parseEhdr b = .ok h ∧ parseShdrs b = .ok l ∧ l[idx]? = some s ∧
      if s.type = 8 then xs = [] else
        xs.length * ly.size h.ehdr.bit32 = s.size ∧ ∀ i x, xs[i]? = some x →
          s.offset + i * ly.size h.ehdr.bit32 + ly.size h.ehdr.bit32 ≤ b.data.length ∧
          x = ly.decode h.ehdr.bit32
            ((b.data.drop (s.offset + i * ly.size h.ehdr.bit32)).take (ly.size h.ehdr.bit32)) := by
  obtain ⟨h, h1, hr⟩ := (bind_ok_iff _ _ _).mp hr
  obtain ⟨s, h2, hr⟩ := (bind_ok_iff _ _ _).mp hr
  obtain ⟨l, h3, h4⟩ := sectionHdr_ok h2
  refine ⟨h, l, s, h1, h3, h4, ?_⟩
  split at hr
  · cases hr
    rw [if_pos (by assumption)]
  · rename_i ht
    rw [if_neg (show ¬ s.type = 8 from ht)]
    simp only at hr
    split at hr
    · cases hr
    · rename_i hm
      have hm : s.size % ly.size h.ehdr.bit32 = 0 := by simpa using hm
      have hdm := Nat.div_add_mod s.size (ly.size h.ehdr.bit32)
      split at hr
      · rename_i hc
        cases hr
        refine ⟨?_, by simp⟩
        rw [hc, hm] at hdm
        simpa using hdm
      · obtain ⟨h5, h6⟩ := readTable_ok (hpos _) hr
        refine ⟨?_, h6⟩
        rw [h5, Nat.mul_comm]; omega

theorem rela_pos (x : Bool) : 0 < relaLayout.size x := by cases x <;> decide
theorem rel_pos (x : Bool) : 0 < relLayout.size x := by cases x <;> decide

theorem symValue_spec {b : Backend} {bit32 : Bool} {s : Shdr} {syms : List Sym}
    (h : SymbolsOf b bit32 s syms) (info : Nat) :
    SymbolValue bit32 b.data s (info / 2 ^ 32) (symValue syms info) := by
  unfold SymbolsOf at h
  unfold SymbolValue symValue relocSym
  have hp : 0 < symSize bit32 := by cases bit32 <;> decide
  split at h
  · rename_i ht
    rw [if_neg (fun x => x.1 ht), h]; simp
  · rename_i ht
    obtain ⟨h1, h2⟩ := h
    by_cases hi : info / 2 ^ 32 < syms.length
    · rw [if_pos ⟨ht, by rw [← h1]; exact Nat.mul_le_mul_right _ hi⟩]
      have hg := List.getElem?_eq_getElem hi
      rw [hg]
      exact ⟨_, h2 _ _ hg, rfl⟩
    · have hn : ¬ (info / 2 ^ 32 + 1) * symSize bit32 ≤ s.size := by
        rw [← h1]
        intro hc
        have := Nat.le_of_mul_le_mul_right hc hp
        omega
      rw [if_neg (fun x => hn x.2), List.getElem?_eq_none (by omega)]

theorem field_lt4 (s : Bytes) (off : Nat) : field s off 4 < 2 ^ 32 := by
  unfold field
  have := leValue_lt ((s.drop off).take 4)
  have h2 : ((s.drop off).take 4).length ≤ 4 := by simp
  calc _ < 256 ^ ((s.drop off).take 4).length := this
    _ ≤ 256 ^ 4 := Nat.pow_le_pow_right (by omega) h2
    _ = 2 ^ 32 := by norm_num

theorem signed_rela32 (x : Nat) : Signed 4 x (signExtend32 x) := by
  unfold Signed signExtend32
  split
  · left; exact ⟨by assumption, rfl⟩
  · right; constructor <;> norm_num at * <;> omega

theorem relaAt_decode {b : Backend} {bit32 : Bool} {o t : Nat} {sy : Shdr} {syms : List Sym}
    (hs : SymbolsOf b bit32 sy syms) (h : o + relaLayout.size bit32 ≤ b.data.length) :
    RelaAt (fun i => i / 2 ^ 32) bit32 b.data sy t o
      (relaReloc syms t (relaLayout.decode bit32 ((b.data.drop o).take (relaLayout.size bit32)))) := by
  cases bit32 with
  | true =>
    have h' : o + 12 ≤ b.data.length := h
    refine ⟨rfl, num_field0 h' 4 (by omega), ⟨_, num_field h' 4 4 (by omega), symValue_spec hs _⟩,
      _, _, num_field h' 8 4 (by omega), signed_rela32 _, rfl⟩
  | false =>
    have h' : o + 24 ≤ b.data.length := h
    refine ⟨rfl, num_field0 h' 8 (by omega), ⟨_, num_field h' 8 8 (by omega), symValue_spec hs _⟩,
      _, _, num_field h' 16 8 (by omega), ?_, rfl⟩
    show Signed 8 _ _
    unfold Signed
    by_cases hx : field ((b.data.drop o).take 24) 16 8 < 2 ^ (8 * 8 - 1)
    · left; exact ⟨hx, rfl⟩
    · right; exact ⟨by omega, Nat.add_comm _ _⟩

theorem relAt_decode {b : Backend} {bit32 : Bool} {o t : Nat} {sy : Shdr} {syms : List Sym}
    (hs : SymbolsOf b bit32 sy syms) (h : o + relLayout.size bit32 ≤ b.data.length) :
    RelAt (fun i => i / 2 ^ 32) bit32 b.data sy t o
      (relReloc syms t (relLayout.decode bit32 ((b.data.drop o).take (relLayout.size bit32)))) := by
  cases bit32 with
  | true =>
    have h' : o + 8 ≤ b.data.length := h
    exact ⟨rfl, num_field0 h' 4 (by omega), ⟨_, num_field h' 4 4 (by omega), symValue_spec hs _⟩,
      rfl⟩
  | false =>
    have h' : o + 16 ≤ b.data.length := h
    exact ⟨rfl, num_field0 h' 8 (by omega), ⟨_, num_field h' 8 8 (by omega), symValue_spec hs _⟩,
      rfl⟩

theorem relocsLoop_ok {b : Backend} {h : EhdrExt} {l : List Shdr} (hh : parseEhdr b = .ok h)
    (hl : parseShdrs b = .ok l) :
    ∀ (n i : Nat) {m m' : SectionRelocs} {rs : List Reloc}, Holds m rs →
      relocsLoop b n i m = .ok m' → i + n = l.length →
      ∃ rss, List.Forall₂ (RelocsOf (fun i => i / 2 ^ 32) h.ehdr.bit32 b.data l) (l.drop i) rss ∧
        Holds m' (rs ++ rss.flatten) := by
  intro n
  induction n with
  | zero =>
    intro i m m' rs hm hr hi
    cases hr
    refine ⟨[], ?_, by simpa using hm⟩
    rw [List.drop_eq_nil_of_le (by omega)]
    exact .nil
  | succ n ih =>
    intro i m m' rs hm hr hi
    obtain ⟨s, h1, hr⟩ := (bind_ok_iff _ _ _).mp hr
    obtain ⟨l', h2, h3⟩ := sectionHdr_ok h1
    rw [hl] at h2
    cases h2
    have hd : l.drop i = s :: l.drop (i + 1) := by
      obtain ⟨hlt, rfl⟩ := List.getElem?_eq_some_iff.mp h3
      exact List.drop_eq_getElem_cons hlt
    rw [hd]
    split at hr
    · rename_i ht
      obtain ⟨syms, h4, hr⟩ := (bind_ok_iff _ _ _).mp hr
      obtain ⟨relas, h5, hr⟩ := (bind_ok_iff _ _ _).mp hr
      obtain ⟨h', l', sy, g1, g2, g3, g4⟩ := parseSectionData_syms h4
      rw [hh] at g1; cases g1
      rw [hl] at g2; cases g2
      obtain ⟨h', l', s', k1, k2, k3, k4⟩ := parseSectionData_ok rela_pos h5
      rw [hh] at k1; cases k1
      rw [hl] at k2; cases k2
      rw [h3] at k3; cases k3
      have ht : s.type = 4 := ht
      rw [if_neg (by omega)] at k4
      obtain ⟨rss, f1, f2⟩ := ih (i + 1) (holds_relas relas hm) hr (by omega)
      refine ⟨relas.map (relaReloc syms s.info) :: rss, .cons ?_ f1, ?_⟩
      · unfold RelocsOf
        rw [if_pos ht]
        refine ⟨sy, g3, by rw [List.length_map]; exact k4.1, fun k r hk => ?_⟩
        rw [List.getElem?_map] at hk
        obtain ⟨x, hx, rfl⟩ := Option.map_eq_some_iff.mp hk
        obtain ⟨q1, rfl⟩ := k4.2 k x hx
        exact relaAt_decode g4 q1
      · rw [List.flatten_cons, ← List.append_assoc]; exact f2
    · rename_i ht
      split at hr
      · rename_i ht2
        obtain ⟨syms, h4, hr⟩ := (bind_ok_iff _ _ _).mp hr
        obtain ⟨relas, h5, hr⟩ := (bind_ok_iff _ _ _).mp hr
        obtain ⟨h', l', sy, g1, g2, g3, g4⟩ := parseSectionData_syms h4
        rw [hh] at g1; cases g1
        rw [hl] at g2; cases g2
        obtain ⟨h', l', s', k1, k2, k3, k4⟩ := parseSectionData_ok rel_pos h5
        rw [hh] at k1; cases k1
        rw [hl] at k2; cases k2
        rw [h3] at k3; cases k3
        have ht2 : s.type = 9 := ht2
        rw [if_neg (by omega)] at k4
        obtain ⟨rss, f1, f2⟩ := ih (i + 1) (holds_rels relas hm) hr (by omega)
        refine ⟨relas.map (relReloc syms s.info) :: rss, .cons ?_ f1, ?_⟩
        · unfold RelocsOf
          rw [if_neg (by omega), if_pos ht2]
          refine ⟨sy, g3, by rw [List.length_map]; exact k4.1, fun k r hk => ?_⟩
          rw [List.getElem?_map] at hk
          obtain ⟨x, hx, rfl⟩ := Option.map_eq_some_iff.mp hk
          obtain ⟨q1, rfl⟩ := k4.2 k x hx
          exact relAt_decode g4 q1
        · rw [List.flatten_cons, ← List.append_assoc]; exact f2
      · rename_i ht2
        obtain ⟨rss, f1, f2⟩ := ih (i + 1) hm hr (by omega)
        refine ⟨[] :: rss, .cons ?_ f1, by simpa using f2⟩
        unfold RelocsOf
        rw [if_neg (show ¬ s.type = 4 from ht), if_neg (show ¬ s.type = 9 from ht2)]

theorem relocs_ok {b : Backend} {m : SectionRelocs} {h : EhdrExt}
    (hr : parseSectionRelocs b = .ok m) (hh : parseEhdr b = .ok h) (ht : h.ehdr.type = 1) :
    ∃ l rss, l.length = h.shnum ∧
      (∀ i s, l[i]? = some s →
        ShdrAt h.ehdr.bit32 b.data (h.ehdr.shoff + i * shdrSize h.ehdr.bit32) s) ∧
      List.Forall₂ (RelocsOf (fun i => i / 2 ^ 32) h.ehdr.bit32 b.data l) l rss ∧
      Holds m rss.flatten := by
  unfold parseSectionRelocs at hr
  rw [hh] at hr
  simp only [bind, Except.bind] at hr
  rw [if_neg (show ¬ h.ehdr.type ≠ ET_REL from fun x => x ht)] at hr
  cases hn : h.shnum with
  | zero =>
    rw [hn] at hr
    cases hr
    exact ⟨[], [], rfl, by simp, .nil, holds_empty⟩
  | succ n =>
    have hr' := hr
    rw [hn] at hr'
    obtain ⟨s, h1, _⟩ := (bind_ok_iff _ _ _).mp hr'
    obtain ⟨l, h2, h3⟩ := sectionHdr_ok h1
    obtain ⟨h', k1, k2, k3⟩ := C10_section_headers b l h2
    rw [hh] at k1; cases k1
    obtain ⟨rss, f1, f2⟩ := relocsLoop_ok hh h2 _ 0 holds_empty hr (by omega)
    exact ⟨l, rss, by omega, k3, by simpa using f1, by simpa using f2⟩

/-- **C54** the relocations of a 64 bit relocatable object: for every place of every section,
what is read from it is the value stored, relocated by the last relocation entry for that place in
the tables the file's section headers describe (symbol value plus addend, which is the
entry's if it has one and the stored value otherwise), and unchanged if there is no entry for it.
Partial: 64 bit files only, see `C54_relocations_32_partial` and `C54_symbol_32_wrong`. -/
theorem C54_relocations_64_partial (b : Backend) (m : SectionRelocs) (h : EhdrExt)
    (hr : parseSectionRelocs b = .ok m) (hh : parseEhdr b = .ok h) (ht : h.ehdr.type = 1)
    (h64 : h.ehdr.bit32 = false) :
    ∃ l rss, l.length = h.shnum ∧
      (∀ i s, l[i]? = some s → ShdrAt false b.data (h.ehdr.shoff + i * 64) s) ∧
      List.Forall₂ (RelocsOf (symbolIndex false) false b.data l) l rss ∧
      ∀ target offset stored : Nat,
        (m target).relocate offset stored = relocated rss.flatten target offset stored := by
  obtain ⟨l, rss, h1, h2, h3, h4⟩ := relocs_ok hr hh ht
  rw [h64] at h2 h3
  exact ⟨l, rss, h1, h2, h3, h4⟩

theorem relocsOf_32 {d : Bytes} {l : List Shdr} {s : Shdr} {rs : List Reloc}
    (h : RelocsOf (fun i => i / 2 ^ 32) true d l s rs) : RelocsOf (fun _ => 0) true d l s rs := by
  have hz (o info : Nat) (hn : Num d o 4 info) : info / 2 ^ 32 = 0 := by
    obtain ⟨_, rfl⟩ := (num_iff _ _ _ _).mp hn
    exact Nat.div_eq_of_lt (field_lt4 _ _)
  unfold RelocsOf at h ⊢
  by_cases h4 : s.type = 4
  · rw [if_pos h4] at h ⊢
    obtain ⟨sy, h1, h2, h3⟩ := h
    refine ⟨sy, h1, h2, fun k r hk => ?_⟩
    obtain ⟨q1, q2, ⟨info, q3, q4⟩, q5⟩ := h3 k r hk
    simp only [hz _ _ q3] at q4
    exact ⟨q1, q2, ⟨info, q3, q4⟩, q5⟩
  · rw [if_neg h4] at h ⊢
    by_cases h9 : s.type = 9
    · rw [if_pos h9] at h ⊢
      obtain ⟨sy, h1, h2, h3⟩ := h
      refine ⟨sy, h1, h2, fun k r hk => ?_⟩
      obtain ⟨q1, q2, ⟨info, q3, q4⟩, q5⟩ := h3 k r hk
      simp only [hz _ _ q3] at q4
      exact ⟨q1, q2, ⟨info, q3, q4⟩, q5⟩
    · rw [if_neg h9] at h ⊢
      exact h

/-- **C54** the relocations of a 32 bit relocatable object. Partial: places, addends and tables are
as for 64 bit objects, but symbol 0 of the symbol table is used for every entry, so only entries
that refer to symbol 0, or to a symbol of the same value, are applied correctly. -/
theorem C54_relocations_32_partial (b : Backend) (m : SectionRelocs) (h : EhdrExt)
    (hr : parseSectionRelocs b = .ok m) (hh : parseEhdr b = .ok h) (ht : h.ehdr.type = 1)
    (h32 : h.ehdr.bit32 = true) :
    ∃ l rss, l.length = h.shnum ∧
      (∀ i s, l[i]? = some s → ShdrAt true b.data (h.ehdr.shoff + i * 40) s) ∧
      List.Forall₂ (RelocsOf (fun _ => 0) true b.data l) l rss ∧
      ∀ target offset stored : Nat,
        (m target).relocate offset stored = relocated rss.flatten target offset stored := by
  obtain ⟨l, rss, h1, h2, h3, h4⟩ := relocs_ok hr hh ht
  rw [h32] at h2 h3
  exact ⟨l, rss, h1, h2, h3.imp fun _ _ => relocsOf_32, h4⟩

/-- **C54** files that are not relocatable objects have no relocations: whatever is read is left
as it is. -/
theorem C54_other_files (b : Backend) (h : EhdrExt) (hh : parseEhdr b = .ok h)
    (ht : h.ehdr.type ≠ 1) :
    ∃ m, parseSectionRelocs b = .ok m ∧
      ∀ target offset stored : Nat, (m target).relocate offset stored = stored := by
  refine ⟨SectionRelocs.empty, ?_, fun _ _ _ => rfl⟩
  unfold parseSectionRelocs
  rw [hh]
  simp only [bind, Except.bind]
  rw [if_pos (show h.ehdr.type ≠ ET_REL from ht)]

/-! ### Acceptance and robustness -/

/-- A table of entries of `size` bytes in the section with header `s` can be read. -/
def TableReadable (b : Backend) (bit32 : Bool) (size : Nat) (s : Shdr) : Prop :=
  s.type = 8 ∨ s.size = 0 ∨ (s.size % size = 0 ∧ s.offset + s.size ≤ b.data.length ∧
    AlignedAt b s.offset (if bit32 then 4 else 8))

theorem parseSectionData_complete {α : Type} {ly : Layout α} {b : Backend} {h : EhdrExt}
    {l : List Shdr} {s : Shdr} {i : Nat} (hh : parseEhdr b = .ok h) (hl : parseShdrs b = .ok l)
    (hs : l[i]? = some s) (hd : b.data.length ≤ isizeMax)
    (ht : TableReadable b h.ehdr.bit32 (ly.size h.ehdr.bit32) s) :
    ∃ xs, parseSectionData ly b i = .ok xs := by
  unfold parseSectionData sectionHdr
  rw [hh, hl]
  simp only [bind, Except.bind, hs]
  split
  · exact ⟨_, rfl⟩
  · rename_i hn
    rcases ht with ht | ht | ⟨h1, h2, h3⟩
    · exact absurd ht hn
    · rw [if_neg (by simp [ht]), if_pos (by simp [ht])]
      exact ⟨_, rfl⟩
    · rw [if_neg (by simpa using h1)]
      split
      · exact ⟨_, rfl⟩
      · refine readTable_complete hd ?_ h3
        have := Nat.div_add_mod s.size (ly.size h.ehdr.bit32)
        omega

/-- **C54** objects whose relocation sections and the symbol tables they refer to are whole tables
inside the file are accepted. -/
theorem C54_accepted (b : Backend) (h : EhdrExt) (l : List Shdr) (hh : parseEhdr b = .ok h)
    (hl : parseShdrs b = .ok l) (hd : b.data.length ≤ isizeMax)
    (hs : ∀ s ∈ l, s.type = 4 ∨ s.type = 9 → ∃ sy, l[s.link]? = some sy ∧
      TableReadable b h.ehdr.bit32 (symSize h.ehdr.bit32) sy ∧
      TableReadable b h.ehdr.bit32
        (if s.type = 4 then relaSize h.ehdr.bit32 else relSize h.ehdr.bit32) s) :
    ∃ m, parseSectionRelocs b = .ok m := by
  obtain ⟨h', k1, k2, _⟩ := C10_section_headers b l hl
  rw [hh] at k1; cases k1
  unfold parseSectionRelocs
  rw [hh]
  simp only [bind, Except.bind]
  split
  · exact ⟨_, rfl⟩
  · have key : ∀ (n i : Nat) (m : SectionRelocs), i + n = l.length →
        ∃ m', relocsLoop b n i m = .ok m' := by
      intro n
      induction n with
      | zero => intro i m _; exact ⟨_, rfl⟩
      | succ n ih =>
        intro i m hi
        have hg := List.getElem?_eq_getElem (l := l) (i := i) (by omega)
        have hm := List.getElem_mem (l := l) (n := i) (by omega)
        generalize l[i]'(by omega) = s at hg hm
        unfold relocsLoop
        have e : sectionHdr b i = .ok s := by
          unfold sectionHdr
          rw [hl]
          simp only [bind, Except.bind, hg]
        rw [e]
        simp only [bind, Except.bind]
        split
        · rename_i ht
          have ht : s.type = 4 := ht
          obtain ⟨sy, g1, g2, g3⟩ := hs s hm (Or.inl ht)
          rw [if_pos ht] at g3
          obtain ⟨syms, e1⟩ := parseSectionData_complete (ly := symLayout) hh hl g1 hd g2
          obtain ⟨rs, e2⟩ := parseSectionData_complete (ly := relaLayout) hh hl hg hd g3
          rw [e1, e2]
          exact ih _ _ (by omega)
        · split
          · rename_i ht ht2
            have ht2 : s.type = 9 := ht2
            obtain ⟨sy, g1, g2, g3⟩ := hs s hm (Or.inr ht2)
            rw [if_neg (show ¬ s.type = 4 from ht)] at g3
            obtain ⟨syms, e1⟩ := parseSectionData_complete (ly := symLayout) hh hl g1 hd g2
            obtain ⟨rs, e2⟩ := parseSectionData_complete (ly := relLayout) hh hl hg hd g3
            rw [e1, e2]
            exact ih _ _ (by omega)
          · exact ih _ _ (by omega)
    exact key _ _ _ (by omega)

theorem parseSectionData_err {α : Type} {ly : Layout α} {addr : Nat} {d : Bytes} {i : Nat} {e : Err}
    (h : parseSectionData ly (.mem addr d) i = .error e) : e ≠ .panic := by
  rcases bind_err h with h | ⟨_, _, h⟩
  · exact parseEhdr_err h
  · rcases bind_err h with h | ⟨_, _, h⟩
    · exact sectionHdr_err h
    · split at h
      · cases h
      · simp only at h
        split at h
        · cases h; decide
        · split at h
          · cases h
          · exact readTable_err h

/-- **C54** malformed relocation sections are reported as an error; no image in memory makes the
parser panic. -/
theorem C54_no_panic (addr : Nat) (d : Bytes) : parseSectionRelocs (.mem addr d) ≠ .error .panic := by
  intro h
  rcases bind_err h with h | ⟨x, _, h⟩
  · exact parseEhdr_err h rfl
  · split at h
    · cases h
    · revert h
      generalize 0 = i
      generalize SectionRelocs.empty = m
      generalize x.shnum = n
      induction n generalizing i m with
      | zero => intro h; cases h
      | succ n ih =>
        intro h
        rcases bind_err h with h | ⟨_, _, h⟩
        · exact sectionHdr_err h rfl
        · split at h
          · rcases bind_err h with h | ⟨_, _, h⟩
            · exact parseSectionData_err h rfl
            · rcases bind_err h with h | ⟨_, _, h⟩
              · exact parseSectionData_err h rfl
              · exact ih _ _ h
          · split at h
            · rcases bind_err h with h | ⟨_, _, h⟩
              · exact parseSectionData_err h rfl
              · rcases bind_err h with h | ⟨_, _, h⟩
                · exact parseSectionData_err h rfl
                · exact ih _ _ h
            · exact ih _ _ h

/-! ### Examples -/

/-- A 64 bit object: section 1 is a symbol table with symbol 1 of value 0x40, section 2 has two
entries with addend for section 3 (offset 8: symbol 1 plus -1, offset 16: symbol 9, which does not
exist, plus 5). -/
def tinyObject : Bytes :=
  -- header
  [127, 69, 76, 70, 2] ++ List.replicate 11 0 ++ [1, 0] ++ List.replicate 22 0 ++
  [64, 0, 0, 0, 0, 0, 0, 0] ++ List.replicate 12 0 ++ [3, 0, 0, 0] ++
  -- section headers
  List.replicate 64 0 ++
  [0, 0, 0, 0, 2, 0, 0, 0] ++ List.replicate 16 0 ++ [0, 1, 0, 0, 0, 0, 0, 0] ++
    [48, 0, 0, 0, 0, 0, 0, 0] ++ List.replicate 24 0 ++
  [0, 0, 0, 0, 4, 0, 0, 0] ++ List.replicate 16 0 ++ [48, 1, 0, 0, 0, 0, 0, 0] ++
    [48, 0, 0, 0, 0, 0, 0, 0] ++ [1, 0, 0, 0, 3, 0, 0, 0] ++ List.replicate 16 0 ++
  -- symbols, at 256
  List.replicate 24 0 ++ List.replicate 8 0 ++ [64, 0, 0, 0, 0, 0, 0, 0] ++ List.replicate 8 0 ++
  -- entries, at 304
  [8, 0, 0, 0, 0, 0, 0, 0] ++ [1, 0, 0, 0, 1, 0, 0, 0] ++
    [255, 255, 255, 255, 255, 255, 255, 255] ++
  [16, 0, 0, 0, 0, 0, 0, 0] ++ [1, 0, 0, 0, 9, 0, 0, 0] ++ [5, 0, 0, 0, 0, 0, 0, 0]

set_option maxRecDepth 20000 in
example : ∃ m h, parseSectionRelocs (.mem 4096 tinyObject) = .ok m ∧
    parseEhdr (.mem 4096 tinyObject) = .ok h ∧ h.ehdr.type = 1 ∧ h.ehdr.bit32 = false ∧
    (m 3).relocate 8 7 = 0x3f ∧ (m 3).relocate 16 7 = 5 ∧ (m 3).relocate 0 7 = 7 ∧
    (m 1).relocate 8 7 = 7 :=
  ⟨_, ⟨⟨false, 1, 0, 64, 0, 3, 0⟩, 3, 0⟩, rfl, by decide, rfl, rfl, by decide, by decide, by decide,
    by decide⟩

set_option maxRecDepth 20000 in
/-- What the tables of `tinyObject` say: the second place is relocated twice in the list of a
section with two entries for it, where the last one counts. -/
example : relocated [⟨3, 8, 0x40, some (2 ^ 64 - 1)⟩, ⟨3, 16, 0, some 5⟩, ⟨3, 16, 2, none⟩] 3 8 7 = 0x3f ∧
    relocated [⟨3, 8, 0x40, some (2 ^ 64 - 1)⟩, ⟨3, 16, 0, some 5⟩, ⟨3, 16, 2, none⟩] 3 16 7 = 9 := by
  decide

set_option maxRecDepth 20000 in
/-- The hypotheses of `C54_accepted` hold of `tinyObject`. -/
example : ∃ l, parseShdrs (.mem 4096 tinyObject) = .ok l ∧
    ∀ s ∈ l, s.type = 4 ∨ s.type = 9 → ∃ sy, l[s.link]? = some sy ∧
      TableReadable (.mem 4096 tinyObject) false (symSize false) sy ∧
      TableReadable (.mem 4096 tinyObject) false
        (if s.type = 4 then relaSize false else relSize false) s := by
  refine ⟨[⟨0, 0, 0, 0, 0, 0, 0, 0, 0, 0⟩, ⟨0, 2, 0, 0, 256, 48, 0, 0, 0, 0⟩,
    ⟨0, 4, 0, 0, 304, 48, 1, 3, 0, 0⟩], by decide, ?_⟩
  intro s hs ht
  simp only [List.mem_cons, List.not_mem_nil, or_false] at hs
  rcases hs with rfl | rfl | rfl
  · simp at ht
  · simp at ht
  · refine ⟨_, rfl, Or.inr (Or.inr ?_), Or.inr (Or.inr ?_)⟩
    · exact ⟨rfl, by decide, rfl⟩
    · exact ⟨rfl, by decide, rfl⟩

/-- A 32 bit object: symbol 1 has value 0x40; one entry says that the place at offset 8 of
section 3 is symbol 1 plus 0. -/
def tinyObject32 : Bytes :=
  -- header
  [127, 69, 76, 70, 1] ++ List.replicate 11 0 ++ [1, 0] ++ List.replicate 14 0 ++ [52, 0, 0, 0] ++
  List.replicate 12 0 ++ [3, 0, 0, 0] ++
  -- section headers
  List.replicate 40 0 ++
  [0, 0, 0, 0, 2, 0, 0, 0] ++ List.replicate 8 0 ++ [172, 0, 0, 0, 32, 0, 0, 0] ++
    List.replicate 16 0 ++
  [0, 0, 0, 0, 4, 0, 0, 0] ++ List.replicate 8 0 ++ [204, 0, 0, 0, 12, 0, 0, 0] ++
    [1, 0, 0, 0, 3, 0, 0, 0] ++ List.replicate 8 0 ++
  -- symbols, at 172
  List.replicate 16 0 ++ [0, 0, 0, 0, 64, 0, 0, 0] ++ List.replicate 8 0 ++
  -- entry, at 204
  [8, 0, 0, 0] ++ [1, 1, 0, 0] ++ [0, 0, 0, 0]

set_option maxRecDepth 20000 in
/-- **C54** does not hold of 32 bit objects: the symbol of a widened entry is taken from the upper 32
bits of `r_info`, which are always 0, instead of from bits 8 and up, so the place is relocated
with the value of symbol 0. -/
theorem C54_symbol_32_wrong :
    ∃ m h l rss, parseSectionRelocs (.mem 4096 tinyObject32) = .ok m ∧
      parseEhdr (.mem 4096 tinyObject32) = .ok h ∧ h.ehdr.bit32 = true ∧ h.ehdr.type = 1 ∧
      parseShdrs (.mem 4096 tinyObject32) = .ok l ∧
      List.Forall₂ (RelocsOf (symbolIndex true) true tinyObject32 l) l rss ∧
      relocated rss.flatten 3 8 0 = 0x40 ∧ (m 3).relocate 8 0 = 0 := by
  refine ⟨_, ⟨⟨true, 1, 0, 52, 0, 3, 0⟩, 3, 0⟩, [⟨0, 0, 0, 0, 0, 0, 0, 0, 0, 0⟩,
    ⟨0, 2, 0, 0, 172, 32, 0, 0, 0, 0⟩, ⟨0, 4, 0, 0, 204, 12, 1, 3, 0, 0⟩],
    [[], [], [⟨3, 8, 0x40, some 0⟩]], rfl, by decide, rfl, rfl, by decide, ?_, by decide, by decide⟩
  refine .cons rfl (.cons rfl (.cons ?_ .nil))
  unfold RelocsOf
  rw [if_pos rfl]
  refine ⟨_, rfl, rfl, fun k r hk => ?_⟩
  match k, hk with
  | 0, hk =>
    cases hk
    refine ⟨rfl, (num_iff _ _ _ _).mpr ⟨by decide, by decide⟩,
      ⟨257, (num_iff _ _ _ _).mpr ⟨by decide, by decide⟩, ?_⟩,
      0, 0, (num_iff _ _ _ _).mpr ⟨by decide, by decide⟩, Or.inl ⟨by decide, rfl⟩, rfl⟩
    unfold SymbolValue
    rw [if_pos ⟨by decide, by decide⟩]
    refine ⟨⟨0, 0, 0, 0, 64, 0⟩, ?_, rfl⟩
    simp only [SymAt, if_true]
    refine ⟨?_, ?_, ?_, ?_, ?_, ?_⟩ <;> exact (num_iff _ _ _ _).mpr ⟨by decide, by decide⟩
  | k + 1, hk => simp at hk

end Blazesym.Elf
