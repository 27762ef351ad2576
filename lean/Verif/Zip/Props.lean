import Verif.Zip.Spec
import Verif.Util.LayoutLemmas
import Verif.Util.MmapProps
import Verif.Util.PathProps
import Verif.Util.ReaderLemmas
import Mathlib.Data.Nat.Bitwise

/-! # C25, C26, C27: ZIP archives -/

set_option autoImplicit false

namespace Blazesym.Zip
open Blazesym.Util Blazesym.Spec Blazesym.Spec.Zip

theorem take?_some {n : Nat} {d : Bytes} (h : n ≤ d.length) : take? n d = some (d.take n, d.drop n) := by
  unfold take?; rw [if_neg (by omega)]

theorem take?_none {n : Nat} {d : Bytes} (h : d.length < n) : take? n d = none := by
  unfold take?; rw [if_pos h]

theorem bit_iff (n k : Nat) : n &&& 2 ^ k ≠ 0 ↔ n.testBit k = true := by
  rw [Nat.and_two_pow]
  cases n.testBit k <;> simp

/-! ### Entries -/

/-- **C25** (entries): a file of the archive is read exactly as it is stored there, if it is
neither encrypted nor streamed: its data is the part of the archive that starts at the reported
offset. -/
theorem C25_entry (d : Bytes) (off : Nat) (e : Entry) :
    parseEntryAtOffset d off = .ok e ↔
      ∃ flags, LocalAt d off flags e ∧ flags.testBit 0 = false ∧ flags.testBit 3 = false := by
  have key : parseEntryAtOffset d off = .ok e ↔ off + 30 ≤ d.length ∧ field d off 4 = 0x04034b50 ∧
      (field d (off + 6) 2).testBit 0 = false ∧ (field d (off + 6) 2).testBit 3 = false ∧
      off + 30 + field d (off + 26) 2 + field d (off + 28) 2 + field d (off + 18) 4 ≤ d.length ∧
      e = ⟨field d (off + 8) 2, (d.drop (off + 30)).take (field d (off + 26) 2),
        off + 30 + field d (off + 26) 2 + field d (off + 28) 2,
        (d.drop (off + 30 + field d (off + 26) 2 + field d (off + 28) 2)).take (field d (off + 18) 4)⟩ := by
    unfold parseEntryAtOffset entryAtImpl
    by_cases h1 : off + 30 ≤ d.length
    · rw [if_neg (by omega)]
      simp only [take?_some (show 30 ≤ (d.drop off).length by rw [List.length_drop]; omega), bind,
        Option.bind, List.drop_drop]
      rw [field_sub _ _ _ 0 4 (by omega), field_sub _ _ _ 6 2 (by omega), field_sub _ _ _ 8 2 (by omega),
        field_sub _ _ _ 26 2 (by omega), field_sub _ _ _ 28 2 (by omega), field_sub _ _ _ 18 4 (by omega),
        Nat.add_zero]
      by_cases h2 : field d off 4 = 0x04034b50
      · rw [if_neg (by simpa using h2)]
        have hb0 := bit_iff (field d (off + 6) 2) 0
        have hb3 := bit_iff (field d (off + 6) 2) 3
        rw [show (2 : Nat) ^ 0 = 1 from rfl] at hb0
        rw [show (2 : Nat) ^ 3 = 8 from rfl] at hb3
        by_cases h3 : (field d (off + 6) 2).testBit 0 = true ∨ (field d (off + 6) 2).testBit 3 = true
        · rw [if_pos (by rw [hb0, hb3]; exact h3)]
          constructor
          · intro h; cases h
          · rintro ⟨_, _, h, h', _⟩
            rcases h3 with h3 | h3
            · rw [h] at h3; cases h3
            · rw [h'] at h3; cases h3
        · rw [if_neg (by rw [hb0, hb3]; exact h3)]
          simp only [not_or, Bool.not_eq_true] at h3
          by_cases h4 : off + 30 + field d (off + 26) 2 ≤ d.length
          · rw [take?_some (by rw [List.length_drop]; omega)]
            simp only [List.drop_drop]
            by_cases h5 : off + 30 + field d (off + 26) 2 + field d (off + 28) 2 ≤ d.length
            · rw [take?_some (by rw [List.length_drop]; omega)]
              simp only [List.drop_drop]
              by_cases h6 : off + 30 + field d (off + 26) 2 + field d (off + 28) 2 + field d (off + 18) 4 ≤ d.length
              · rw [take?_some (by rw [List.length_drop]; omega)]
                simp only [List.length_drop, pure, Option.getD_some, Except.ok.injEq]
                rw [show off + (d.length - off - (d.length - (off + 30 + field d (off + 26) 2 + field d (off + 28) 2))) =
                  off + 30 + field d (off + 26) 2 + field d (off + 28) 2 by omega]
                constructor
                · intro h; exact ⟨h1, h2, h3.1, h3.2, h6, h.symm⟩
                · rintro ⟨_, _, _, _, _, h⟩; exact h.symm
              · rw [take?_none (by rw [List.length_drop]; omega)]
                constructor
                · intro h; cases h
                · rintro ⟨_, _, _, _, h, _⟩; exact absurd h h6
            · rw [take?_none (by rw [List.length_drop]; omega)]
              constructor
              · intro h; cases h
              · rintro ⟨_, _, _, _, h, _⟩; exact absurd (by omega) h5
          · rw [take?_none (by rw [List.length_drop]; omega)]
            constructor
            · intro h; cases h
            · rintro ⟨_, _, _, _, h, _⟩; exact absurd (by omega) h4
      · rw [if_pos (by simpa using h2)]
        constructor
        · intro h; cases h
        · rintro ⟨_, h, _⟩; exact absurd h h2
    · constructor
      · intro h
        split at h
        · cases h
        · simp only [take?_none (show (d.drop off).length < 30 by rw [List.length_drop]; omega), bind,
            Option.bind] at h
          cases h
      · rintro ⟨h, _⟩; exact absurd h h1
  rw [key]
  constructor
  · rintro ⟨h1, h2, h3, h4, h5, rfl⟩
    refine ⟨_, ⟨field d (off + 28) 2, ?_⟩, h3, h4⟩
    simp only [num_iff, isSlice_iff, List.length_take, List.length_drop]
    have e1 : min (field d (off + 26) 2) (d.length - (off + 30)) = field d (off + 26) 2 := by omega
    have e2 : min (field d (off + 18) 4) (d.length - (off + 30 + field d (off + 26) 2 + field d (off + 28) 2)) =
      field d (off + 18) 4 := by omega
    rw [e1, e2]
    refine ⟨⟨by omega, h2.symm⟩, ⟨by omega, trivial⟩, ⟨by omega, trivial⟩, ⟨by omega, rfl⟩, ⟨by omega, rfl⟩,
      ⟨by omega, trivial⟩, ⟨by omega, rfl⟩, ?_, by omega, rfl⟩
    rfl
  · rintro ⟨flags, ⟨extra, g1, g2, g3, g4, g5, g6, g7, g8, g9⟩, h3, h4⟩
    rw [num_iff] at g1 g2 g3 g4 g5 g6
    rw [isSlice_iff] at g7 g9
    obtain ⟨comp, path, doff, data⟩ := e
    simp only at *
    obtain ⟨_, g2⟩ := g2
    obtain ⟨_, g3⟩ := g3
    obtain ⟨_, g4⟩ := g4
    obtain ⟨_, g5⟩ := g5
    obtain ⟨_, g6⟩ := g6
    rw [← g2, ← g3, ← g4, ← g5, ← g6]
    refine ⟨by omega, g1.2.symm, h3, h4, by omega, ?_⟩
    rw [← g8, ← g7.2, ← g9.2]

/-- **C25** (entries): whatever is not such a file is reported as invalid data. -/
theorem C25_entry_error (d : Bytes) (off : Nat) {err : Err} (h : parseEntryAtOffset d off = .error err) :
    err = .invalidData := by
  have key : ∀ r, entryAtImpl d off = some (.error r) → r = .invalidData := by
    intro r hr
    unfold entryAtImpl at hr
    split at hr
    · cases hr
    · simp only [bind, Option.bind_eq_some_iff] at hr
      obtain ⟨lfh, _, hr⟩ := hr
      split at hr
      · simp only [pure, Option.some.injEq, Except.error.injEq] at hr; exact hr.symm
      · split at hr
        · simp only [pure, Option.some.injEq, Except.error.injEq] at hr; exact hr.symm
        · simp only [Option.bind_eq_some_iff] at hr
          obtain ⟨_, _, _, _, _, _, hr⟩ := hr
          cases hr
  unfold parseEntryAtOffset at h
  cases hi : entryAtImpl d off with
  | none => rw [hi] at h; cases h; rfl
  | some r =>
    rw [hi] at h
    simp only [Option.getD_some] at h
    subst h
    exact key err hi

/-! ### The central directory -/

theorem drop_take?_none {d : Bytes} {pos n : Nat} (hp : pos ≤ d.length) (h : d.length < pos + n) :
    take? n (d.drop pos) = none := take?_none (by rw [List.length_drop]; omega)

theorem drop_take?_some {d : Bytes} {pos n : Nat} (h : pos + n ≤ d.length) :
    take? n (d.drop pos) = some ((d.drop pos).take n, d.drop (pos + n)) := by
  rw [take?_some (by rw [List.length_drop]; omega), List.drop_drop]

theorem headerAt_iff (d : Bytes) (pos off len : Nat) :
    HeaderAt d pos off len ↔ field d pos 4 = 0x02014b50 ∧ off = field d (pos + 42) 4 ∧
      len = 46 + field d (pos + 28) 2 + field d (pos + 30) 2 + field d (pos + 32) 2 ∧
      pos + len ≤ d.length := by
  unfold HeaderAt
  simp only [num_iff]
  constructor
  · rintro ⟨n, x, c, h1, h2, h3, h4, h5, h6, h7⟩
    exact ⟨h1.2.symm, h5.2, by rw [h6, h2.2, h3.2, h4.2], h7⟩
  · rintro ⟨h1, h2, h3, h4⟩
    exact ⟨_, _, _, ⟨by omega, h1.symm⟩, ⟨by omega, rfl⟩, ⟨by omega, rfl⟩, ⟨by omega, rfl⟩,
      ⟨by omega, h2⟩, h3, h4⟩

/-- A header is taken off the directory and what it refers to is read. -/
theorem next_header {d : Bytes} {pos off len : Nat} (h : HeaderAt d pos off len) :
    parseNextEntry d (d.drop pos) = (parseEntryAtOffset d off, d.drop (pos + len)) := by
  rw [headerAt_iff] at h
  obtain ⟨h1, rfl, rfl, h4⟩ := h
  unfold parseNextEntry
  rw [drop_take?_some (by omega)]
  simp only
  rw [field_sub _ _ _ 0 4 (by omega), field_sub _ _ _ 28 2 (by omega), field_sub _ _ _ 30 2 (by omega),
    field_sub _ _ _ 32 2 (by omega), field_sub _ _ _ 42 4 (by omega), Nat.add_zero, if_neg (by simpa using h1),
    drop_take?_some (by omega)]
  simp only
  rw [drop_take?_some (by omega)]
  simp only
  rw [drop_take?_some (by omega)]
  simp only [Nat.add_assoc]

/-- Without a header, there is an error. -/
theorem next_no_header {d : Bytes} {pos : Nat} (hp : pos ≤ d.length) (h : ¬ ∃ off len, HeaderAt d pos off len) :
    (parseNextEntry d (d.drop pos)).1 = .error .invalidData := by
  simp only [headerAt_iff] at h
  unfold parseNextEntry
  by_cases h1 : pos + 46 ≤ d.length
  · rw [drop_take?_some h1]
    simp only
    rw [field_sub _ _ _ 0 4 (by omega), field_sub _ _ _ 28 2 (by omega), field_sub _ _ _ 30 2 (by omega),
      field_sub _ _ _ 32 2 (by omega), field_sub _ _ _ 42 4 (by omega), Nat.add_zero]
    by_cases h2 : field d pos 4 = 0x02014b50
    · rw [if_neg (by simpa using h2)]
      by_cases h3 : pos + 46 + field d (pos + 28) 2 ≤ d.length
      · rw [drop_take?_some h3]
        simp only
        by_cases h4 : pos + 46 + field d (pos + 28) 2 + field d (pos + 30) 2 ≤ d.length
        · rw [drop_take?_some h4]
          simp only
          by_cases h5 : pos + 46 + field d (pos + 28) 2 + field d (pos + 30) 2 + field d (pos + 32) 2 ≤ d.length
          · exact absurd ⟨_, _, h2, rfl, rfl, by omega⟩ h
          · rw [drop_take?_none (by omega) (by omega)]
        · rw [drop_take?_none (by omega) (by omega)]
      · rw [drop_take?_none (by omega) (by omega)]
    · rw [if_pos (by simpa using h2)]
  · rw [drop_take?_none hp (by omega)]

theorem entriesLoop_length (d : Bytes) (n : Nat) (cd : Bytes) : (entriesLoop d n cd).length = n := by
  induction n generalizing cd with
  | zero => rfl
  | succ n ih => unfold entriesLoop; simp [ih]

/-- Every error is invalid data, everything else is a file of the archive. -/
theorem next_sound (d cd : Bytes) :
    (parseNextEntry d cd).1 = .error .invalidData ∨ ∃ off, (parseNextEntry d cd).1 = parseEntryAtOffset d off := by
  unfold parseNextEntry
  split
  · exact Or.inl rfl
  · split
    · exact Or.inl rfl
    · split
      · exact Or.inl rfl
      · split
        · exact Or.inl rfl
        · split
          · exact Or.inl rfl
          · exact Or.inr ⟨_, rfl⟩

theorem entriesLoop_sound (d : Bytes) (n : Nat) (cd : Bytes) :
    ∀ r ∈ entriesLoop d n cd, r = .error .invalidData ∨ ∃ off, r = parseEntryAtOffset d off := by
  induction n generalizing cd with
  | zero => intro r hr; simp [entriesLoop] at hr
  | succ n ih =>
    intro r hr
    unfold entriesLoop at hr
    rcases List.mem_cons.mp hr with rfl | hr
    · exact next_sound d cd
    · exact ih _ r hr

theorem entriesLoop_directory {d : Bytes} {pos stop : Nat} {offs : List Nat} (h : Directory d pos stop offs)
    (n : Nat) :
    entriesLoop d (offs.length + n) (d.drop pos) =
      offs.map (parseEntryAtOffset d) ++ entriesLoop d n (d.drop stop) := by
  induction offs generalizing pos with
  | nil =>
    unfold Directory at h
    subst h
    simp
  | cons off offs ih =>
    unfold Directory at h
    obtain ⟨len, h1, h2⟩ := h
    rw [List.length_cons, show offs.length + 1 + n = (offs.length + n) + 1 by omega]
    rw [entriesLoop]
    rw [next_header h1]
    simp only
    rw [ih h2]
    rfl

theorem directory_stop {d : Bytes} {pos stop : Nat} {offs : List Nat} (h : Directory d pos stop offs)
    (hp : pos ≤ d.length) : stop ≤ d.length := by
  induction offs generalizing pos with
  | nil => unfold Directory at h; omega
  | cons off offs ih =>
    unfold Directory at h
    obtain ⟨len, h1, h2⟩ := h
    exact ih h2 ((headerAt_iff _ _ _ _).mp h1).2.2.2

/-! ### Finding the central directory -/

theorem eocdAt_iff (d : Bytes) (pos : Nat) (r : Eocd) :
    EocdAt d pos r ↔ field d pos 4 = 0x06054b50 ∧ pos + 22 + field d (pos + 20) 2 ≤ d.length ∧
      r = ⟨field d (pos + 4) 2, field d (pos + 6) 2, field d (pos + 8) 2, field d (pos + 10) 2,
        field d (pos + 16) 4, field d (pos + 20) 2⟩ := by
  unfold EocdAt
  simp only [num_iff]
  constructor
  · rintro ⟨h1, h2, h3, h4, h5, h6, h7, h8⟩
    refine ⟨h1.2.symm, by rw [← h7.2]; exact h8, ?_⟩
    rw [← h2.2, ← h3.2, ← h4.2, ← h5.2, ← h6.2, ← h7.2]
  · rintro ⟨h1, h2, rfl⟩
    exact ⟨⟨by omega, h1.symm⟩, ⟨by omega, rfl⟩, ⟨by omega, rfl⟩, ⟨by omega, rfl⟩, ⟨by omega, rfl⟩,
      ⟨by omega, rfl⟩, ⟨by omega, rfl⟩, h2⟩

/-- What is tried at an offset. -/
theorem tryParse_cases (d : Bytes) (pos : Nat) :
    (∃ r, EocdAt d pos r ∧ r.SingleFile ∧ tryParseEndOfCd (d.drop pos) = some (.ok (r.cdOffset, r.records))) ∨
    (∃ r, EocdAt d pos r ∧ ¬ r.SingleFile ∧ tryParseEndOfCd (d.drop pos) = some (.error .invalidData)) ∨
    ((¬ ∃ r, EocdAt d pos r) ∧ tryParseEndOfCd (d.drop pos) = none) := by
  simp only [eocdAt_iff]
  unfold tryParseEndOfCd
  by_cases h1 : pos + 22 ≤ d.length
  · rw [drop_take?_some h1]
    simp only [bind, Option.bind]
    rw [field_sub _ _ _ 0 4 (by omega), field_sub _ _ _ 4 2 (by omega), field_sub _ _ _ 6 2 (by omega),
      field_sub _ _ _ 8 2 (by omega), field_sub _ _ _ 10 2 (by omega), field_sub _ _ _ 16 4 (by omega),
      field_sub _ _ _ 20 2 (by omega), Nat.add_zero]
    by_cases h2 : field d pos 4 = 0x06054b50
    · rw [if_neg (by simpa using h2)]
      by_cases h3 : pos + 22 + field d (pos + 20) 2 ≤ d.length
      · rw [if_neg (by rw [List.length_drop]; omega)]
        by_cases h4 : field d (pos + 4) 2 ≠ 0 ∨ field d (pos + 6) 2 ≠ 0 ∨ field d (pos + 10) 2 ≠ field d (pos + 8) 2
        · rw [if_pos h4]
          right; left
          refine ⟨_, ⟨h2, h3, rfl⟩, ?_, rfl⟩
          unfold Eocd.SingleFile
          simp only
          omega
        · rw [if_neg h4]
          left
          refine ⟨_, ⟨h2, h3, rfl⟩, ?_, rfl⟩
          unfold Eocd.SingleFile
          simp only
          omega
      · rw [if_pos (by rw [List.length_drop]; omega)]
        right; right
        exact ⟨fun ⟨r, _, h, _⟩ => h3 h, rfl⟩
    · rw [if_pos (by simpa using h2)]
      right; right
      exact ⟨fun ⟨r, h, _⟩ => h2 h, rfl⟩
  · rw [take?_none (by rw [List.length_drop]; omega)]
    right; right
    exact ⟨fun ⟨r, _, h, _⟩ => h1 (by omega), rfl⟩

theorem eocdAt_unique {d : Bytes} {pos : Nat} {r r' : Eocd} (h : EocdAt d pos r) (h' : EocdAt d pos r') :
    r = r' := by
  rw [eocdAt_iff] at h h'
  rw [h.2.2, h'.2.2]

theorem findCdLoop_spec (d : Bytes) (start remaining : Nat)
    (hno : ∀ pos r, start + remaining ≤ pos → ¬ EocdAt d pos r) :
    (∃ pos r, start ≤ pos ∧ EocdAt d pos r ∧ (∀ pos' r', pos < pos' → ¬ EocdAt d pos' r') ∧
      ((r.SingleFile ∧ r.cdOffset + r.records * 46 ≤ d.length ∧
          findCdLoop d start remaining = .ok (r.cdOffset, r.records)) ∨
       (r.SingleFile ∧ ¬ r.cdOffset + r.records * 46 ≤ d.length ∧
          findCdLoop d start remaining = .error .unexpectedEof) ∨
       (¬ r.SingleFile ∧ findCdLoop d start remaining = .error .invalidData))) ∨
    ((∀ pos r, start ≤ pos → ¬ EocdAt d pos r) ∧ findCdLoop d start remaining = .error .invalidData) := by
  induction remaining with
  | zero => right; exact ⟨fun pos r h => hno pos r (by omega), rfl⟩
  | succ n ih =>
    unfold findCdLoop
    rcases tryParse_cases d (start + n) with ⟨r, h1, h2, h3⟩ | ⟨r, h1, h2, h3⟩ | ⟨h1, h3⟩
    · rw [h3]
      left
      refine ⟨start + n, r, by omega, h1, fun pos' r' h => hno pos' r' (by omega), ?_⟩
      simp only [getRange]
      by_cases h4 : r.cdOffset + r.records * 46 ≤ d.length
      · left
        rw [if_pos ⟨by omega, h4⟩]
        exact ⟨h2, h4, rfl⟩
      · right; left
        rw [if_neg (by omega)]
        exact ⟨h2, h4, rfl⟩
    · rw [h3]
      left
      exact ⟨start + n, r, by omega, h1, fun pos' r' h => hno pos' r' (by omega), Or.inr (Or.inr ⟨h2, rfl⟩)⟩
    · rw [h3]
      simp only
      apply ih
      intro pos r h
      by_cases he : pos = start + n
      · subst he; exact fun hh => h1 ⟨r, hh⟩
      · exact hno pos r (by omega)

theorem lastEocd_unique {d : Bytes} {r r' : Eocd} (h : LastEocd d r) (h' : LastEocd d r') : r = r' := by
  obtain ⟨p, h1, _, h2⟩ := h
  obtain ⟨p', h1', _, h2'⟩ := h'
  have : p = p' := by
    by_contra hne
    rcases Nat.lt_or_ge p p' with hlt | hge
    · exact h2 p' r' hlt h1'
    · exact h2' p r (by omega) h1
  subst this
  exact eocdAt_unique h1 h1'

theorem findCd_spec (d : Bytes) :
    (∃ r, LastEocd d r ∧
      ((r.SingleFile ∧ r.cdOffset + r.records * 46 ≤ d.length ∧ findCd d = .ok (r.cdOffset, r.records)) ∨
       (r.SingleFile ∧ ¬ r.cdOffset + r.records * 46 ≤ d.length ∧ findCd d = .error .unexpectedEof) ∨
       (¬ r.SingleFile ∧ findCd d = .error .invalidData))) ∨
    ((¬ ∃ r, LastEocd d r) ∧ findCd d = .error .invalidData) := by
  unfold findCd
  by_cases h : d.length < 22
  · rw [if_pos h]
    right
    refine ⟨?_, rfl⟩
    rintro ⟨r, p, h1, _⟩
    rw [eocdAt_iff] at h1
    omega
  · rw [if_neg h]
    simp only
    have hno : ∀ pos r, d.length - 22 - 65536 + (d.length - 22 + 1 - (d.length - 22 - 65536)) ≤ pos →
        ¬ EocdAt d pos r := by
      intro pos r hp he
      rw [eocdAt_iff] at he
      omega
    rcases findCdLoop_spec d _ _ hno with ⟨pos, r, h1, h2, h3, h4⟩ | ⟨h1, h2⟩
    · left
      exact ⟨r, ⟨pos, h2, by omega, h3⟩, h4⟩
    · right
      refine ⟨?_, h2⟩
      rintro ⟨r, p, g1, g2, _⟩
      exact h1 p r (by omega) g1

/-- **C26**: the archive is opened using the last end of central directory record, if that says
that it is in a single file and has a central directory inside the archive. -/
theorem C26_opens (d : Bytes) (pos n : Nat) : findCd d = .ok (pos, n) ↔ Opens d pos n := by
  unfold Opens
  rcases findCd_spec d with ⟨r, h1, h⟩ | ⟨h1, h⟩
  · constructor
    · intro he
      refine ⟨r, h1, ?_⟩
      rcases h with ⟨a, b, c⟩ | ⟨a, b, c⟩ | ⟨a, c⟩
      · rw [he] at c
        simp only [Except.ok.injEq, Prod.mk.injEq] at c
        obtain ⟨rfl, rfl⟩ := c
        exact ⟨a, rfl, rfl, b⟩
      · rw [he] at c; cases c
      · rw [he] at c; cases c
    · rintro ⟨r', h1', h2', rfl, rfl, h3'⟩
      obtain rfl := lastEocd_unique h1 h1'
      rcases h with ⟨a, b, c⟩ | ⟨a, b, c⟩ | ⟨a, c⟩
      · exact c
      · exact absurd h3' b
      · exact absurd h2' a
  · constructor
    · intro he; rw [he] at h; cases h
    · rintro ⟨r, hr, _⟩; exact absurd ⟨r, hr⟩ h1

/-- **C26** (errors): otherwise opening fails: with an unexpected end of file if the central
directory does not fit, and with invalid data if there is no such record or it says that the
archive is not in a single file. -/
theorem C26_rejects (d : Bytes) :
    (findCd d = .error .unexpectedEof ↔
      ∃ r, LastEocd d r ∧ r.SingleFile ∧ d.length < r.cdOffset + r.records * 46) ∧
    (findCd d = .error .invalidData ↔ ¬ ∃ r, LastEocd d r ∧ r.SingleFile) ∧
    ∀ e, findCd d = .error e → e = .unexpectedEof ∨ e = .invalidData := by
  rcases findCd_spec d with ⟨r, h1, ⟨a, b, c⟩ | ⟨a, b, c⟩ | ⟨a, c⟩⟩ | ⟨h1, c⟩
  · rw [c]
    refine ⟨⟨fun h => (by cases h), ?_⟩, ⟨fun h => (by cases h), fun h => absurd ⟨r, h1, a⟩ h⟩, fun e h => by cases h⟩
    rintro ⟨r', g1, _, g3⟩
    obtain rfl := lastEocd_unique h1 g1
    omega
  · rw [c]
    exact ⟨⟨fun _ => ⟨r, h1, a, by omega⟩, fun _ => rfl⟩,
      ⟨fun h => (by cases h), fun h => absurd ⟨r, h1, a⟩ h⟩, fun e h => by cases h; exact Or.inl rfl⟩
  · rw [c]
    refine ⟨⟨fun h => (by cases h), ?_⟩, ⟨fun _ => ?_, fun _ => rfl⟩, fun e h => by cases h; exact Or.inr rfl⟩
    · rintro ⟨r', g1, g2, _⟩
      obtain rfl := lastEocd_unique h1 g1
      exact absurd g2 a
    · rintro ⟨r', g1, g2⟩
      obtain rfl := lastEocd_unique h1 g1
      exact absurd g2 a
  · rw [c]
    refine ⟨⟨fun h => (by cases h), ?_⟩, ⟨fun _ => ?_, fun _ => rfl⟩, fun e h => by cases h; exact Or.inr rfl⟩
    · rintro ⟨r', g1, _⟩; exact absurd ⟨r', g1⟩ h1
    · rintro ⟨r', g1, _⟩; exact h1 ⟨r', g1⟩

/-- **C26** (comments): an archive that ends with a record and its comment, whatever that
contains other than such records, is opened using this record. -/
theorem C26_comment {d : Bytes} {pos : Nat} {r : Eocd} (h : EocdAt d pos r)
    (hend : pos + 22 + r.commentLength = d.length) (hno : ∀ pos' r', pos < pos' → ¬ EocdAt d pos' r') :
    LastEocd d r := by
  refine ⟨pos, h, ?_, hno⟩
  have h1 := (num_iff _ _ _ _).mp h.2.2.2.2.2.2.1
  have h2 : r.commentLength < 256 ^ 2 := by
    rw [h1.2]
    unfold field
    refine lt_of_lt_of_le (leValue_lt _) ?_
    apply Nat.pow_le_pow_right (by omega)
    rw [List.length_take]
    omega
  omega

/-! ### Enumerating the entries -/

/-- **C25** (archives): an archive that can be opened yields as many items as it says it has
files; each is an error or a file that is stored in the archive; its data lies inside the
archive. -/
theorem C25_entries_sound {d : Bytes} {items : List (Except Err Entry)} (h : entries d = .ok items) :
    ∃ pos n, Opens d pos n ∧ items.length = n ∧
      ∀ r ∈ items, r = .error .invalidData ∨
        ∃ e off flags, r = .ok e ∧ LocalAt d off flags e ∧ flags.testBit 0 = false ∧ flags.testBit 3 = false ∧
          e.dataOffset + e.data.length ≤ d.length := by
  unfold entries at h
  cases hf : findCd d with
  | error e => rw [hf] at h; cases h
  | ok p =>
    obtain ⟨pos, n⟩ := p
    rw [hf] at h
    simp only at h
    split at h
    · cases h
    · simp only [Except.ok.injEq] at h
      subst h
      refine ⟨pos, n, (C26_opens d pos n).mp hf, entriesLoop_length _ _ _, ?_⟩
      intro r hr
      rcases entriesLoop_sound d _ _ r hr with h | ⟨off, h⟩
      · exact Or.inl h
      · cases hp : parseEntryAtOffset d off with
        | error e =>
          left
          rw [h, hp, C25_entry_error d off hp]
        | ok e =>
          right
          obtain ⟨flags, h1, h2, h3⟩ := (C25_entry d off e).mp hp
          refine ⟨e, off, flags, by rw [h, hp], h1, h2, h3, ?_⟩
          obtain ⟨x, _, _, _, _, _, _, _, _, h9⟩ := h1
          exact ((isSlice_iff _ _ _ _).mp h9).1

/-- **C25** (completeness): if the central directory starts with headers for certain files, then
these are the first items, read as they are stored; if no header follows although there should
be more, the next item is an error. -/
theorem C25_entries_complete {d : Bytes} {pos n : Nat} (ho : Opens d pos n) {offs : List Nat} {stop : Nat}
    (hd : Directory d pos stop offs) (hn : offs.length ≤ n) :
    ∃ rest, entries d = .ok (offs.map (parseEntryAtOffset d) ++ rest) ∧ rest.length = n - offs.length ∧
      ((¬ ∃ off len, HeaderAt d stop off len) → rest = [] ∨ ∃ rest', rest = .error .invalidData :: rest') := by
  have hf := (C26_opens d pos n).mpr ho
  obtain ⟨r, _, _, _, _, hp⟩ := ho
  have hps : pos ≤ d.length := by omega
  refine ⟨entriesLoop d (n - offs.length) (d.drop stop), ?_, entriesLoop_length _ _ _, ?_⟩
  · unfold entries
    rw [hf]
    simp only
    rw [if_neg (by omega), ← entriesLoop_directory hd, Nat.add_sub_cancel' hn]
  · intro hno
    cases hk : n - offs.length with
    | zero => left; rfl
    | succ k =>
      right
      unfold entriesLoop
      simp only
      rw [next_no_header (directory_stop hd hps) hno]
      exact ⟨_, rfl⟩

/-- **C25** (no panic): opening and enumerating never panics. -/
theorem C25_no_panic (d : Bytes) : entries d ≠ .error .panic := by
  unfold entries
  cases hf : findCd d with
  | error e =>
    rcases (C26_rejects d).2.2 e hf with rfl | rfl <;> simp
  | ok p =>
    obtain ⟨pos, n⟩ := p
    simp only
    obtain ⟨r, _, _, _, _, hp⟩ := (C26_opens d pos n).mp hf
    rw [if_neg (by omega)]
    simp

/-! ### Members of APKs -/

/-- The data of the member contains the offset. -/
def Within (e : Entry) (off : Nat) : Prop := e.dataOffset ≤ off ∧ off < e.dataOffset + e.data.length

instance (e : Entry) (off : Nat) : Decidable (Within e off) := by unfold Within; infer_instance

theorem findMember_some {off : Nat} {items : List (Except Err Entry)} {e : Entry} :
    findMember off items = .ok (some e) ↔
      ∃ (before : List Entry) (after : List (Except Err Entry)), items = before.map .ok ++ .ok e :: after ∧ Within e off ∧ ∀ x ∈ before, ¬ Within x off := by
  induction items with
  | nil =>
    constructor
    · intro h; cases h
    · rintro ⟨b, a, h, _⟩; simp at h
  | cons r t ih =>
    cases r with
    | error err =>
      unfold findMember
      constructor
      · intro h; cases h
      · rintro ⟨b, a, h, _⟩
        cases b <;> simp at h
    | ok x =>
      unfold findMember
      by_cases hx : x.dataOffset ≤ off ∧ off < x.dataOffset + x.data.length
      · rw [if_pos hx]
        constructor
        · intro h
          have h' : x = e := by simpa using h
          subst h'
          exact ⟨[], t, rfl, hx, by simp⟩
        · rintro ⟨b, a, h, h1, h2⟩
          cases b with
          | nil => simp at h; rw [h.1]
          | cons y b =>
            simp at h
            exact absurd hx (h.1 ▸ h2 y (List.mem_cons_self ..))
      · rw [if_neg hx, ih]
        constructor
        · rintro ⟨b, a, h, h1, h2⟩
          refine ⟨x :: b, a, by rw [h]; rfl, h1, ?_⟩
          intro y hy
          rcases List.mem_cons.mp hy with rfl | hy
          · exact hx
          · exact h2 y hy
        · rintro ⟨b, a, h, h1, h2⟩
          cases b with
          | nil => simp at h; exact absurd h1 (h.1 ▸ hx)
          | cons y b =>
            simp at h
            exact ⟨b, a, h.2, h1, fun z hz => h2 z (List.mem_cons_of_mem _ hz)⟩

theorem findMember_none {off : Nat} {items : List (Except Err Entry)} :
    findMember off items = .ok none ↔ ∃ all : List Entry, items = all.map .ok ∧ ∀ x ∈ all, ¬ Within x off := by
  induction items with
  | nil => exact ⟨fun _ => ⟨[], rfl, by simp⟩, fun _ => rfl⟩
  | cons r t ih =>
    cases r with
    | error err =>
      unfold findMember
      constructor
      · intro h; cases h
      · rintro ⟨b, h, _⟩
        cases b <;> simp at h
    | ok x =>
      unfold findMember
      by_cases hx : x.dataOffset ≤ off ∧ off < x.dataOffset + x.data.length
      · rw [if_pos hx]
        constructor
        · intro h; cases h
        · rintro ⟨b, h, h2⟩
          cases b with
          | nil => simp at h
          | cons y b =>
            simp at h
            exact absurd hx (h.1 ▸ h2 y (List.mem_cons_self ..))
      · rw [if_neg hx, ih]
        constructor
        · rintro ⟨b, h, h2⟩
          refine ⟨x :: b, by rw [h]; rfl, ?_⟩
          intro y hy
          rcases List.mem_cons.mp hy with rfl | hy
          · exact hx
          · exact h2 y hy
        · rintro ⟨b, h, h2⟩
          cases b with
          | nil => simp at h
          | cons y b =>
            simp at h
            exact ⟨b, h.2, fun z hz => h2 z (List.mem_cons_of_mem _ hz)⟩

theorem findMember_error {off : Nat} {items : List (Except Err Entry)} {err : Err} :
    findMember off items = .error err ↔
      ∃ (before : List Entry) (after : List (Except Err Entry)), items = before.map .ok ++ .error err :: after ∧ ∀ x ∈ before, ¬ Within x off := by
  induction items with
  | nil =>
    constructor
    · intro h; cases h
    · rintro ⟨b, a, h, _⟩; simp at h
  | cons r t ih =>
    cases r with
    | error err' =>
      unfold findMember
      constructor
      · intro h
        have h' : err' = err := by simpa using h
        subst h'
        exact ⟨[], t, rfl, by simp⟩
      · rintro ⟨b, a, h, _⟩
        cases b with
        | nil => simp at h; rw [h.1]
        | cons y b => simp at h
    | ok x =>
      unfold findMember
      by_cases hx : x.dataOffset ≤ off ∧ off < x.dataOffset + x.data.length
      · rw [if_pos hx]
        constructor
        · intro h; cases h
        · rintro ⟨b, a, h, h2⟩
          cases b with
          | nil => simp at h
          | cons y b =>
            simp at h
            exact absurd hx (h.1 ▸ h2 y (List.mem_cons_self ..))
      · rw [if_neg hx, ih]
        constructor
        · rintro ⟨b, a, h, h2⟩
          refine ⟨x :: b, a, by rw [h]; rfl, ?_⟩
          intro y hy
          rcases List.mem_cons.mp hy with rfl | hy
          · exact hx
          · exact h2 y hy
        · rintro ⟨b, a, h, h2⟩
          cases b with
          | nil => simp at h
          | cons y b =>
            simp at h
            exact ⟨b, a, h.2, fun z hz => h2 z (List.mem_cons_of_mem _ hz)⟩

/-- The view on a member is on exactly its data. -/
theorem memberData_eq {contents : Bytes} (hlen : contents.length < 2 ^ 63) {e : Entry}
    (hs : IsSlice contents e.dataOffset e.data.length e.data) (hne : contents ≠ []) :
    memberData (Mmap.map contents) e = .ok e.data := by
  have hm : (Mmap.map contents).mapping = some contents := by
    unfold Mmap.map
    rw [if_neg (by simpa using hne)]
  have hin := (isSlice_iff _ _ _ _).mp hs
  obtain ⟨m', h1, _, _, h2⟩ := (C29_constrain_partial (map_inside hne) hm hlen e.dataOffset
    (e.dataOffset + e.data.length) (by omega) (by omega)).1 (by rw [C29_map]; omega)
  unfold memberData
  rw [h1]
  simp only
  rw [C29_map, isSlice_iff, Nat.add_sub_cancel_left, ← hin.2] at h2
  rw [h2.2]

/-- The members up to a certain one, in the order of the central directory, all readable. -/
def Members (contents : Bytes) (before : List Entry) (e : Entry) : Prop :=
  ∃ after, entries contents = .ok (before.map .ok ++ .ok e :: after)

theorem members_slice {contents : Bytes} {before : List Entry} {e : Entry} (h : Members contents before e) :
    IsSlice contents e.dataOffset e.data.length e.data ∧ contents ≠ [] := by
  obtain ⟨after, h⟩ := h
  obtain ⟨pos, n, ho, _, hall⟩ := C25_entries_sound h
  rcases hall (.ok e) (by simp) with h1 | ⟨e', off, flags, h1, h2, _⟩
  · cases h1
  · have h' : e = e' := by simpa using h1
    subst h'
    obtain ⟨x, _, _, _, _, _, _, _, _, h9⟩ := h2
    refine ⟨h9, ?_⟩
    rintro rfl
    obtain ⟨r, ⟨p, hp, _⟩, _⟩ := ho
    rw [eocdAt_iff] at hp
    have := hp.2.1
    simp at this

/-- **C27** (normalization): an offset in an APK is attributed to the first member whose data
contains it, as an offset into that member; the build ID is that of the member's data; the byte
at the offset of the archive is the byte at the offset of the member. -/
theorem C27_translate {contents : Bytes} (hlen : contents.length < 2 ^ 63) {before : List Entry} {e : Entry}
    (hm : Members contents before e) {off : Nat} (hw : Within e off) (hb : ∀ x ∈ before, ¬ Within x off)
    (readBuildId : Nat → Bytes → Except Err (Option Bytes)) (apk : Bytes) :
    translateApkToElf contents false readBuildId apk off =
      .ok (some (off - e.dataOffset, createApkElfPath apk e.path, none)) ∧
    (∀ id, readBuildId e.dataOffset e.data = .ok id → translateApkToElf contents true readBuildId apk off =
      .ok (some (off - e.dataOffset, createApkElfPath apk e.path, id))) ∧
    (∀ err, readBuildId e.dataOffset e.data = .error err → translateApkToElf contents true readBuildId apk off = .error err) ∧
    contents[off]? = e.data[off - e.dataOffset]? ∧ off - e.dataOffset < e.data.length := by
  obtain ⟨hs, hne⟩ := members_slice hm
  have hd := memberData_eq hlen hs hne
  obtain ⟨after, he⟩ := hm
  have hf := findMember_some.mpr ⟨before, after, rfl, hw, hb⟩
  refine ⟨?_, ?_, ?_, ?_, ?_⟩
  · unfold translateApkToElf
    simp only [C29_map, he, bind, Except.bind, hf]
    rfl
  · intro id hid
    unfold translateApkToElf
    simp only [C29_map, he, bind, Except.bind, hf, if_true, hd, hid]
    rfl
  · intro id hid
    unfold translateApkToElf
    simp only [C29_map, he, bind, Except.bind, hf, if_true, hd, hid]
  · have h1 := (isSlice_iff _ _ _ _).mp hs
    unfold Within at hw
    rw [h1.2, List.getElem?_take, if_pos (by omega), List.getElem?_drop]
    congr 1
    omega
  · unfold Within at hw; omega

/-- **C27** (symbolization): an offset in an APK is symbolized with the first member whose data
contains it, the resolver being made of that data and given the offset into it. -/
theorem C27_resolver {R : Type} {contents : Bytes} (hlen : contents.length < 2 ^ 63) {before : List Entry}
    {e : Entry} (hm : Members contents before e) {off : Nat} (hw : Within e off)
    (hb : ∀ x ∈ before, ¬ Within x off) (dispatch : Nat → Bytes → Bytes → Except Err R)
    (toVirt : R → Nat → Except Err (Option Nat)) :
    (∀ err, dispatch e.dataOffset e.path e.data = .error err → createApkResolver contents dispatch toVirt off = .error err) ∧
    (∀ res, dispatch e.dataOffset e.path e.data = .ok res →
      createApkResolver contents dispatch toVirt off =
        (toVirt res (off - e.dataOffset)).map (Option.map (fun addr => (res, addr)))) := by
  obtain ⟨hs, hne⟩ := members_slice hm
  have hd := memberData_eq hlen hs hne
  obtain ⟨after, he⟩ := hm
  have hf := findMember_some.mpr ⟨before, after, rfl, hw, hb⟩
  constructor
  · intro err herr
    unfold createApkResolver
    simp only [C29_map, he, bind, Except.bind, hf, hd, herr]
  · intro res hres
    unfold createApkResolver
    simp only [C29_map, he, bind, Except.bind, hf, hd, hres]
    cases toVirt res (off - e.dataOffset) with
    | error err => rfl
    | ok o => cases o <;> rfl

/-- **C27** (no member): an offset that no member contains is not attributed, if all members can be
read; an unreadable member makes the lookup fail unless a member before it contains the offset.
An archive that cannot be opened is an error. -/
theorem C27_no_member {R : Type} (contents : Bytes) (off : Nat) (dispatch : Nat → Bytes → Bytes → Except Err R)
    (toVirt : R → Nat → Except Err (Option Nat)) (buildIds : Bool)
    (readBuildId : Nat → Bytes → Except Err (Option Bytes)) (apk : Bytes) :
    (∀ all : List Entry, entries contents = .ok (all.map .ok) → (∀ x ∈ all, ¬ Within x off) →
      createApkResolver contents dispatch toVirt off = .ok none ∧
      translateApkToElf contents buildIds readBuildId apk off = .ok none) ∧
    (∀ (before : List Entry) (err : Err) (after : List (Except Err Entry)), entries contents = .ok (before.map .ok ++ .error err :: after) →
      (∀ x ∈ before, ¬ Within x off) →
      createApkResolver contents dispatch toVirt off = .error .invalidData ∧
      translateApkToElf contents buildIds readBuildId apk off = .error .invalidData) ∧
    (∀ err, entries contents = .error err →
      createApkResolver contents dispatch toVirt off = .error err ∧
      translateApkToElf contents buildIds readBuildId apk off = .error err) := by
  unfold createApkResolver translateApkToElf
  refine ⟨?_, ?_, ?_⟩
  · intro all he hw
    have hf := findMember_none.mpr ⟨all, rfl, hw⟩
    simp only [C29_map, he, bind, Except.bind, hf]
    exact ⟨rfl, rfl⟩
  · intro before err after he hw
    have hf := (findMember_error (err := err)).mpr ⟨before, after, rfl, hw⟩
    have herr : err = .invalidData := by
      obtain ⟨_, _, _, _, hall⟩ := C25_entries_sound he
      rcases hall (.error err) (by simp) with h | ⟨_, _, _, h, _⟩
      · simpa using h
      · cases h
    subst herr
    simp only [C29_map, he, bind, Except.bind, hf]
    exact ⟨trivial, trivial⟩
  · intro err he
    simp only [C29_map, he, bind, Except.bind]
    exact ⟨trivial, trivial⟩

/-! ### Paths of members -/

/-- The pieces of a path that are names. -/
def names (p : Bytes) : List Bytes := (pieces p).filter isComponent

theorem pieces_cons {c : Bytes} (h : ∀ b ∈ c, b ≠ 47) (x : Bytes) : pieces (c ++ 47 :: x) = c :: pieces x := by
  induction c with
  | nil => simp [pieces]
  | cons b t ih =>
    rw [List.cons_append, pieces, if_neg (h b (by simp)), ih (fun y hy => h y (by simp [hy]))]

theorem takeWhile_split (p : Bytes) :
    (p.takeWhile (fun b => b != 47) = p ∧ ∀ b ∈ p, b ≠ 47) ∨
    ∃ x, p = p.takeWhile (fun b => b != 47) ++ 47 :: x := by
  induction p with
  | nil => left; simp
  | cons b t ih =>
    by_cases hb : b = 47
    · subst hb; right; exact ⟨t, by simp⟩
    · have hb' : (b != 47) = true := by simpa using hb
      rw [List.takeWhile_cons, if_pos hb']
      rcases ih with ⟨h1, h2⟩ | ⟨x, h⟩
      · left
        refine ⟨by rw [h1], ?_⟩
        intro y hy
        rcases List.mem_cons.mp hy with rfl | hy
        · exact hb
        · exact h2 y hy
      · right
        exact ⟨x, by rw [List.cons_append, ← h]⟩

theorem takeWhile_noslash (p : Bytes) : ∀ b ∈ p.takeWhile (fun b => b != 47), b ≠ 47 := by
  induction p with
  | nil => simp
  | cons a t ih =>
    rw [List.takeWhile_cons]
    split
    · rename_i ha
      intro b hb
      rcases List.mem_cons.mp hb with rfl | hb
      · simpa using ha
      · exact ih b hb
    · simp

theorem trimLeft_spec (fuel : Nat) (p : Bytes) (h : p.length ≤ fuel) :
    names (trimLeft fuel p) = names p ∧ (trimLeft fuel p).head? ≠ some 47 ∧ trimLeft fuel p <:+ p := by
  induction fuel generalizing p with
  | zero =>
    have : p = [] := List.length_eq_zero_iff.mp (by omega)
    subst this
    simp [trimLeft]
  | succ n ih =>
    unfold trimLeft
    cases p with
    | nil => simp
    | cons a t =>
      simp only
      generalize hc : (a :: t).takeWhile (fun b => b != 47) = c
      have hns := takeWhile_noslash (a :: t)
      rw [hc] at hns
      by_cases hcomp : isComponent c = true
      · rw [if_pos hcomp]
        refine ⟨rfl, ?_, List.suffix_refl _⟩
        intro hh
        simp only [List.head?_cons, Option.some.injEq] at hh
        subst hh
        simp only [List.takeWhile_cons, bne_self_eq_false, Bool.false_eq_true, if_false] at hc
        rw [← hc] at hcomp
        simp [isComponent] at hcomp
      · rw [if_neg hcomp]
        have hlen : ((a :: t).drop (c.length + 1)).length ≤ n := by
          rw [List.length_drop]
          simp only [List.length_cons] at h ⊢
          omega
        obtain ⟨i1, i2, i3⟩ := ih _ hlen
        refine ⟨?_, i2, i3.trans (List.drop_suffix _ _)⟩
        rw [i1]
        rcases takeWhile_split (a :: t) with ⟨g1, g2⟩ | ⟨x, g⟩
        · rw [hc] at g1
          rw [← g1] at g2 ⊢
          rw [List.drop_of_length_le (by omega)]
          unfold names
          rw [pieces_noslash g2]
          simp [pieces, isComponent] at hcomp ⊢
          exact hcomp
        · rw [hc] at g
          rw [g, show (c ++ 47 :: x).drop (c.length + 1) = x by
            rw [← List.drop_drop, List.drop_left]; rfl]
          unfold names
          rw [pieces_cons hns, List.filter_cons, if_neg hcomp]

theorem trimRight'_spec (fuel : Nat) (p : Bytes) (h : p.length ≤ fuel) :
    names (trimRight' fuel p) = names p ∧ trimRight' fuel p <+: p ∧ (trimRight' fuel p).getLast? ≠ some 47 := by
  induction fuel generalizing p with
  | zero =>
    have : p = [] := List.length_eq_zero_iff.mp (by omega)
    subst this
    simp [trimRight']
  | succ n ih =>
    unfold trimRight'
    cases p with
    | nil => simp
    | cons a t =>
      simp only
      generalize hp : a :: t = p at *
      have hpos : 0 < p.length := by rw [← hp]; simp
      generalize hc : (p.reverse.takeWhile (fun b => b != 47)).reverse = c
      have hns : ∀ b ∈ c, b ≠ 47 := by
        intro b hb
        rw [← hc, List.mem_reverse] at hb
        exact takeWhile_noslash _ b hb
      by_cases hcomp : isComponent c = true
      · rw [if_pos hcomp]
        refine ⟨rfl, List.prefix_refl _, ?_⟩
        intro hl
        rw [← List.head?_reverse] at hl
        cases hr : p.reverse with
        | nil => rw [hr] at hl; cases hl
        | cons x xs =>
          rw [hr] at hl hc
          simp only [List.head?_cons, Option.some.injEq] at hl
          subst hl
          simp only [List.takeWhile_cons, bne_self_eq_false, Bool.false_eq_true, if_false] at hc
          rw [← hc] at hcomp
          simp [isComponent] at hcomp
      · rw [if_neg hcomp]
        have hlen : (p.take (p.length - (c.length + 1))).length ≤ n := by
          rw [List.length_take]
          omega
        obtain ⟨i1, i2, i3⟩ := ih _ hlen
        refine ⟨?_, i2.trans (List.take_prefix _ _), i3⟩
        rw [i1]
        rcases takeWhile_split p.reverse with ⟨g1, g2⟩ | ⟨x, g⟩
        · have : c = p := by rw [← hc, g1, List.reverse_reverse]
          subst this
          rw [show c.length - (c.length + 1) = 0 by omega, List.take_zero]
          unfold names
          rw [pieces_noslash hns, List.filter_cons, if_neg hcomp]
          simp [pieces, isComponent]
        · have g' : p = x.reverse ++ 47 :: c := by
            have := congrArg List.reverse g
            rw [List.reverse_reverse, List.reverse_append, hc] at this
            simpa using this
          rw [g', show (x.reverse ++ 47 :: c).length - (c.length + 1) = x.reverse.length by simp, List.take_left]
          unfold names
          rw [pieces_append hns, List.filter_append, List.filter_cons, if_neg hcomp]
          simp

/-- **C27** (paths): the path of a member is the archive's path, `!/`, and the member's path,
which is left alone if it is relative; otherwise it is made relative, with the same names. -/
theorem C27_path (apk elf : Bytes) :
    ∃ rest, createApkElfPath apk elf = apk ++ [33, 47] ++ rest ∧
      (elf.head? ≠ some 47 → rest = elf) ∧
      (elf.head? = some 47 → rest.head? ≠ some 47 ∧ rest.getLast? ≠ some 47 ∧ rest <:+: elf ∧
        components elf = [47] :: (pieces rest).filter (fun p => decide (p ≠ [] ∧ p ≠ [46]))) := by
  unfold createApkElfPath
  simp only
  by_cases h : elf.head? = some 47
  · rw [if_pos h]
    obtain ⟨l1, l2, l3⟩ := trimLeft_spec elf.length (elf.drop 1) (by rw [List.length_drop]; omega)
    generalize trimLeft elf.length (elf.drop 1) = mid at l1 l2 l3 ⊢
    obtain ⟨r1, r2, r3⟩ := trimRight'_spec mid.length mid (Nat.le_refl _)
    generalize trimRight' mid.length mid = rest at r1 r2 r3 ⊢
    refine ⟨rest, by simp, fun hn => absurd h hn, fun _ => ⟨?_, r3, ?_, ?_⟩⟩
    · obtain ⟨t, rfl⟩ := r2
      cases rest with
      | nil => simp
      | cons x xs => simpa using l2
    · exact r2.isInfix.trans (l3.isInfix.trans (List.drop_suffix _ _).isInfix)
    · cases elf with
      | nil => simp at h
      | cons a t =>
        simp only [List.head?_cons, Option.some.injEq] at h
        subst h
        have hn : names rest = names t := by rw [r1, l1]; rfl
        have hfun : (fun p : Bytes => decide (p ≠ [] ∧ p ≠ [46])) = isComponent := by
          funext p
          by_cases h1 : p = [] <;> by_cases h2 : p = [46] <;> simp [isComponent, h1, h2]
        rw [components_eq, hfun]
        simp only [List.head?_cons, if_true, List.singleton_append]
        congr 1
        show _ = names rest
        rw [hn, pieces, if_pos rfl, List.filter_cons]
        simp [isComponent, names]
  · rw [if_neg h]
    exact ⟨elf, by simp, fun _ => rfl, fun hn => absurd hn h⟩

/-! ### Example: an archive of a stored file `a`, with a comment -/

/-- The local header, name and data of the file. -/
def demoLocal : Bytes :=
  [0x50, 0x4b, 3, 4, 10, 0, 0, 0, 0, 0, 0, 0, 0, 0, 0, 0, 0, 0, 2, 0, 0, 0, 2, 0, 0, 0, 1, 0, 0, 0] ++ [97] ++ [7, 8]

/-- The central directory header and name of the file. -/
def demoCentral : Bytes :=
  [0x50, 0x4b, 1, 2, 10, 0, 10, 0, 0, 0, 0, 0, 0, 0, 0, 0, 0, 0, 0, 0, 2, 0, 0, 0, 2, 0, 0, 0, 1, 0, 0, 0,
    0, 0, 0, 0, 0, 0, 0, 0, 0, 0, 0, 0, 0, 0] ++ [97]

/-- The archive. -/
def demoZip : Bytes :=
  demoLocal ++ demoCentral ++
    [0x50, 0x4b, 5, 6, 0, 0, 0, 0, 1, 0, 1, 0, 47, 0, 0, 0, 33, 0, 0, 0, 3, 0] ++ [1, 2, 3]

/-- The file of the example. -/
def demoEntry : Entry := ⟨0, [97], 31, [7, 8]⟩

theorem demo_entries : entries demoZip = .ok [.ok demoEntry] := by decide +kernel

/-- The example satisfies the hypotheses of the C25 and C26 theorems. -/
example : Opens demoZip 33 1 ∧ Directory demoZip 33 80 [0] ∧ ∃ flags, LocalAt demoZip 0 flags demoEntry := by
  refine ⟨(C26_opens _ _ _).mp (by decide +kernel), ⟨47, ?_, rfl⟩, ?_⟩
  · rw [headerAt_iff]; decide +kernel
  · obtain ⟨flags, h, _⟩ := (C25_entry demoZip 0 demoEntry).mp (by decide +kernel)
    exact ⟨flags, h⟩

/-- The comment of the example reaches up to the end of the archive. -/
example : ∃ r, EocdAt demoZip 80 r ∧ 80 + 22 + r.commentLength = demoZip.length ∧
    ∀ pos' r', 80 < pos' → ¬ EocdAt demoZip pos' r' := by
  refine ⟨⟨0, 0, 1, 1, 33, 3⟩, ?_, by decide +kernel, ?_⟩
  · rw [eocdAt_iff]; decide +kernel
  · intro pos' r' h he
    rw [eocdAt_iff] at he
    have hl : demoZip.length = 105 := by decide +kernel
    have : pos' = 81 ∨ pos' = 82 ∨ pos' = 83 := by omega
    obtain ⟨h1, _⟩ := he
    revert h1
    rcases this with rfl | rfl | rfl <;> decide +kernel

/-- Offset 32 of the example is the second byte of the file. -/
example : Members demoZip [] demoEntry ∧ Within demoEntry 32 ∧ demoZip.length < 2 ^ 63 ∧
    translateApkToElf demoZip false (fun _ _ => .ok none) [120] 32 = .ok (some (1, [120, 33, 47, 97], none)) :=
  ⟨⟨[], demo_entries⟩, by decide, by decide +kernel, by decide +kernel⟩

/-- Offset 3 of the example is in no file. -/
example : entries demoZip = .ok ([demoEntry].map .ok) ∧ (∀ x ∈ [demoEntry], ¬ Within x 3) :=
  ⟨demo_entries, by decide⟩

/-- An encrypted file, or one with a wrong signature, is an error that makes the lookup fail. -/
example : entries (demoZip.set 6 1) = .ok [.error .invalidData] ∧
    entries (demoZip.set 6 8) = .ok [.error .invalidData] ∧
    entries (demoZip.set 33 0) = .ok [.error .invalidData] ∧
    createApkResolver (demoZip.set 6 1) (fun _ _ d => .ok d) (fun _ o => .ok (some o)) 32 = .error .invalidData := by
  decide +kernel

/-- Archives that are rejected. -/
example : findCd (demoZip.set 84 1) = .error .invalidData ∧ findCd (demoZip.set 99 1) = .error .unexpectedEof ∧
    findCd (demoZip.set 80 0) = .error .invalidData ∧ findCd [] = .error .invalidData := by
  decide +kernel

end Blazesym.Zip
