import Verif.Maps.MapsLemmas

/-! Property theorems C16 (a line of `/proc/<pid>/maps`) and C17 (the file). -/

set_option autoImplicit false

namespace Blazesym.Maps
open Blazesym.Util Blazesym.Spec Blazesym.Spec.Maps

/-- The name reported for a mapping called `name`. -/
def reportedName (pid : Nat) (v : Vma) : Option PathName :=
  if v.name = [] then none
  else if v.name.head? = some 47 then
    some (.path ⟨mapsFile pid v.start v.stop, (stripSuffix v.name (ascii " (deleted)")).getD v.name⟩)
  else some (.component v.name)

/-- The entry reported for a mapping: all its data, no build ID. -/
def reported (pid : Nat) (v : Vma) : Entry :=
  ⟨v.start, v.stop, 4 * v.r.toNat + 2 * v.w.toNat + v.x.toNat, v.offset, reportedName pid v, none⟩

theorem parsePathName_eq (pid : Nat) (v : Vma) :
    parsePathName v.name pid v.start v.stop = reportedName pid v := by
  unfold parsePathName reportedName
  cases v.name with
  | nil => rfl
  | cons b t =>
    by_cases hb : b = 47
    · simp [hb]
    · simp [hb]

theorem parseModeStr_permField (r w x s : Bool) :
    parseModeStr (permField r w x s) = some (4 * r.toNat + 2 * w.toNat + x.toNat) := by
  cases r <;> cases w <;> cases x <;> cases s <;> rfl

theorem split_sp {a b : Bytes} (ha : ∀ x ∈ a, ¬ Blank x) :
    splitBytes (a ++ 32 :: b) isAsciiWs = some (a, b) :=
  splitBytes_some_iff.mpr ⟨32, rfl, rfl, fun x hx => (isAsciiWs_false_iff x).mpr (ha x hx)⟩

theorem permField_not_blank (r w x s : Bool) : ∀ b ∈ permField r w x s, ¬ Blank b := by
  cases r <;> cases w <;> cases x <;> cases s <;> decide

theorem parse_printed (pid : Nat) (v : Vma) (s e o dev ino tail : Bytes)
    (hs : HexOf s v.start) (he : HexOf e v.stop) (ho : HexOf o v.offset)
    (hd : ∀ b ∈ dev, ¬ Blank b) (hi : ∀ b ∈ ino, ¬ Blank b)
    (b1 : v.start < 2 ^ 64) (b2 : v.stop < 2 ^ 64) (b3 : v.offset < 2 ^ 64)
    (ht : trimAscii tail = v.name) :
    parseMapsLine (s ++ [45] ++ e ++ [32] ++ permField v.r v.w v.x v.shared ++ [32] ++ o ++ [32] ++ dev ++
      [32] ++ ino ++ 32 :: tail) pid = .ok (reported pid v) := by
  have hline : s ++ [45] ++ e ++ [32] ++ permField v.r v.w v.x v.shared ++ [32] ++ o ++ [32] ++ dev ++
      [32] ++ ino ++ 32 :: tail = (s ++ 45 :: e) ++ 32 :: (permField v.r v.w v.x v.shared ++ 32 ::
        (o ++ 32 :: (dev ++ 32 :: (ino ++ 32 :: tail)))) := by simp
  have h1 : ∀ b ∈ s ++ 45 :: e, ¬ Blank b := by
    intro b hb
    rcases List.mem_append.mp hb with hb | hb
    · exact digit_not_blank (hs.1 b hb)
    · rcases List.mem_cons.mp hb with rfl | hb
      · decide
      · exact digit_not_blank (he.1 b hb)
  have h2 : splitOnce (s ++ 45 :: e) (fun b => b == 45) = some (s, e) := by
    rw [splitOnce_eq]
    refine splitBytes_some_iff.mpr ⟨45, rfl, rfl, fun x hx => ?_⟩
    rw [beq_eq_false_iff_ne]
    rintro rfl
    exact absurd (hs.1 45 hx) (by decide)
  rw [hline]
  unfold parseMapsLine
  simp only [split_sp h1, orInvalid, bind, Except.bind, pure, Except.pure, h2, hexOrInvalid_ok.mpr ⟨hs, b1⟩,
    hexOrInvalid_ok.mpr ⟨he, b2⟩, split_sp (permField_not_blank _ _ _ _), parseModeStr_permField,
    split_sp (fun b hb => digit_not_blank (ho.1 b hb)), hexOrInvalid_ok.mpr ⟨ho, b3⟩, split_sp hd,
    split_sp hi, ht, parsePathName_eq]
  rfl

/-- **C16** (partial) the line printed for a mapping parses to exactly its data, if the name
does not start or end in blanks.  Missing: names ending in blanks, which are reported wrongly
(`C16_trailing_blanks_lost`). -/
theorem C16_parse_printed_partial (pid : Nat) (v : Vma) (line : Bytes) (h : Printed v line)
    (b1 : v.start < 2 ^ 64) (b2 : v.stop < 2 ^ 64) (b3 : v.offset < 2 ^ 64)
    (hn1 : ∀ b, v.name.head? = some b → ¬ Blank b) (hn2 : ∀ b, v.name.getLast? = some b → ¬ Blank b) :
    parseMapsLine line pid = .ok (reported pid v) := by
  obtain ⟨s, e, o, dev, ino, pad, hs, he, ho, hd, hi, rfl⟩ := h
  have := parse_printed pid v s e o dev ino (List.replicate pad 32 ++ v.name ++ [10]) hs he ho hd hi
    b1 b2 b3 (trimAscii_eq (by
        intro x hx; rw [List.eq_of_mem_replicate hx]; rfl) (by simp [isAsciiWs])
      (fun x hx => (isAsciiWs_false_iff x).mpr (hn1 x hx))
      (fun x hx => (isAsciiWs_false_iff x).mpr (hn2 x hx)))
  rw [← this]
  simp [List.append_assoc]

/-- **C16** (negative) blanks at the end of the name of a mapping are lost: the entry is that
of another name. -/
theorem C16_trailing_blanks_lost (pid : Nat) (v : Vma) (name blanks line : Bytes)
    (h : Printed v line) (hv : v.name = name ++ blanks) (hb : ∀ b ∈ blanks, Blank b)
    (b1 : v.start < 2 ^ 64) (b2 : v.stop < 2 ^ 64) (b3 : v.offset < 2 ^ 64)
    (hn1 : ∀ b, name.head? = some b → ¬ Blank b) (hn2 : ∀ b, name.getLast? = some b → ¬ Blank b) :
    parseMapsLine line pid = .ok (reported pid { v with name := name }) := by
  obtain ⟨s, e, o, dev, ino, pad, hs, he, ho, hd, hi, rfl⟩ := h
  have := parse_printed pid { v with name := name } s e o dev ino
    (List.replicate pad 32 ++ name ++ (blanks ++ [10])) hs he ho hd hi
    b1 b2 b3 (trimAscii_eq (by
        intro x hx; rw [List.eq_of_mem_replicate hx]; rfl) (by
        intro x hx
        rcases List.mem_append.mp hx with hx | hx
        · exact (isAsciiWs_iff x).mpr (hb x hx)
        · simp only [List.mem_singleton] at hx; subst hx; rfl)
      (fun x hx => (isAsciiWs_false_iff x).mpr (hn1 x hx))
      (fun x hx => (isAsciiWs_false_iff x).mpr (hn2 x hx)))
  rw [← this, hv]
  simp [List.append_assoc]

/-- A library called "/a " (with a blank), and "/a": not told apart. -/
example : parseMapsLine (ascii "1000-2000 r-xp 00000000 08:01 12 /a \n") 7 =
    parseMapsLine (ascii "1000-2000 r-xp 00000000 08:01 12 /a\n") 7 := by decide +kernel

/-- **C16** the three permissions are told apart in the entry. -/
theorem C16_permissions (pid : Nat) (v : Vma) :
    (reported pid v).perm &&& permR = (if v.r then permR else 0) ∧
    (reported pid v).perm &&& permW = (if v.w then permW else 0) ∧
    (reported pid v).perm &&& permX = (if v.x then permX else 0) := by
  unfold reported
  cases v.r <;> cases v.w <;> cases v.x <;> simp [permR, permW, permX]

/-- **C16** the path through which the mapped file can be opened names the process and the
exact range of the mapping. -/
theorem C16_maps_file (pid start stop : Nat) (h1 : pid < 2 ^ 64) (h2 : start < 2 ^ 64) (h3 : stop < 2 ^ 64) :
    ∃ p s e, mapsFile pid start stop = ascii "/proc/" ++ p ++ ascii "/map_files/" ++ s ++ [45] ++ e ∧
      (∀ c ∈ p, IsDigit 10 c) ∧ numVal 10 p = pid ∧ HexOf s start ∧ HexOf e stop := by
  refine ⟨fmtDec pid, fmtHex start, fmtHex stop, rfl, (fmtDec_spec pid h1).1, (fmtDec_spec pid h1).2,
    fmtHex_spec start h2, fmtHex_spec stop h3⟩

example : mapsFile 1234 0x7f00deadb000 0x10 = ascii "/proc/1234/map_files/7f00deadb000-10" := by decide

/-- **C16** a `(deleted)` marker is not part of the path. -/
theorem C16_deleted (pid : Nat) (v : Vma) (path : Bytes) (hp : path.head? = some 47)
    (hv : v.name = path ++ ascii " (deleted)") :
    (reported pid v).pathName = some (.path ⟨mapsFile pid v.start v.stop, path⟩) := by
  unfold reported reportedName
  simp only
  have h1 : v.name ≠ [] := by rw [hv]; simp [ascii]
  have h2 : v.name.head? = some 47 := by
    rw [hv]
    cases path with
    | nil => cases hp
    | cons b t => simpa using hp
  rw [if_neg h1, if_pos h2, stripSuffix_some_iff.mpr hv]
  rfl

/-- **C16** any other path is reported as it is. -/
theorem C16_not_deleted (pid : Nat) (v : Vma) (hp : v.name.head? = some 47)
    (hv : ¬ ∃ path, v.name = path ++ ascii " (deleted)") :
    (reported pid v).pathName = some (.path ⟨mapsFile pid v.start v.stop, v.name⟩) := by
  unfold reported reportedName
  simp only
  have h1 : v.name ≠ [] := by rintro h; rw [h] at hp; cases hp
  rw [if_neg h1, if_pos hp, stripSuffix_none_iff.mpr hv]
  rfl

example : parseMapsLine (ascii "7f5a-7f5b r-xp 0001c000 fe:01 1049 /usr/lib/my lib.so (deleted)\n") 1 =
    .ok ⟨0x7f5a, 0x7f5b, 5, 0x1c000,
      some (.path ⟨ascii "/proc/1/map_files/7f5a-7f5b", ascii "/usr/lib/my lib.so"⟩), none⟩ ∧
    parseMapsLine (ascii "08-09 rw-p 0 00:00 0          [heap]\n") 1 =
    .ok ⟨8, 9, 6, 0, some (.component (ascii "[heap]")), none⟩ ∧
    parseMapsLine (ascii "08-09 ---p 0 00:00 0 \n") 1 = .ok ⟨8, 9, 0, 0, none, none⟩ ∧
    parseMapsLine (ascii "08-09 ---p 0 00:00 0") 1 = .ok ⟨8, 9, 0, 0, none, none⟩ := by decide +kernel

/-- **C16** (soundness) whatever is returned for a line is what its fields say: the range from
the first field, split at the first dash, permissions from the second, offset from the third;
the fourth and fifth are ignored and the rest, trimmed, is the name. -/
theorem C16_fields (pid : Nat) (line : Bytes) (e : Entry) (h : parseMapsLine line pid = .ok e) :
    ∃ s t m o dev rest w1 w2 w3 w4,
      line = s ++ 45 :: t ++ w1 :: m ++ w2 :: o ++ w3 :: dev ++ w4 :: rest ∧
      Blank w1 ∧ Blank w2 ∧ Blank w3 ∧ Blank w4 ∧
      HexOf s e.start ∧ HexOf t e.stop ∧ HexOf o e.offset ∧
      e.start < 2 ^ 64 ∧ e.stop < 2 ^ 64 ∧ e.offset < 2 ^ 64 ∧
      (∀ b ∈ m, ¬ Blank b) ∧ (∀ b ∈ dev, ¬ Blank b) ∧
      (∃ r w x more, m = r :: w :: x :: more ∧
        e.perm = 4 * (decide (r = 114)).toNat + 2 * (decide (w = 119)).toNat + (decide (x = 120)).toNat) ∧
      e.buildId = none ∧
      ∃ name, e.pathName = parsePathName name pid e.start e.stop ∧
        ((name = [] ∧ ∀ b ∈ rest, ¬ Blank b) ∨
          ∃ ino w5 pre post, rest = ino ++ w5 :: (pre ++ name ++ post) ∧ (∀ b ∈ ino, ¬ Blank b) ∧ Blank w5 ∧
            (∀ b ∈ pre, Blank b) ∧ (∀ b ∈ post, Blank b) ∧
            (∀ b, name.head? = some b → ¬ Blank b) ∧ (∀ b, name.getLast? = some b → ¬ Blank b)) := by
  have oi {α : Type} {x : Option α} {a : α} (h : orInvalid x = .ok a) : x = some a := by
    cases x with
    | none => cases h
    | some y => cases h; rfl
  unfold parseMapsLine at h
  replace h := bind_ok h
  obtain ⟨⟨addr, l1⟩, h1, h⟩ := h
  replace h := bind_ok h
  obtain ⟨⟨s, t⟩, h2, h⟩ := h
  replace h := bind_ok h
  obtain ⟨start, h3, h⟩ := h
  replace h := bind_ok h
  obtain ⟨stop, h4, h⟩ := h
  replace h := bind_ok h
  obtain ⟨⟨m, l2⟩, h5, h⟩ := h
  replace h := bind_ok h
  obtain ⟨perm, h6, h⟩ := h
  replace h := bind_ok h
  obtain ⟨⟨o, l3⟩, h7, h⟩ := h
  replace h := bind_ok h
  obtain ⟨offset, h8, h⟩ := h
  replace h := bind_ok h
  obtain ⟨⟨dev, rest⟩, h9, h⟩ := h
  obtain ⟨w1, rfl, ww1, a1⟩ := splitBytes_some_iff.mp (oi h1)
  have h2 := oi h2
  rw [splitOnce_eq] at h2
  obtain ⟨w0, rfl, ww0, a0⟩ := splitBytes_some_iff.mp h2
  have hw0 : w0 = 45 := by simpa using ww0
  subst hw0
  obtain ⟨w2, rfl, ww2, a2⟩ := splitBytes_some_iff.mp (oi h5)
  obtain ⟨w3, rfl, ww3, a3⟩ := splitBytes_some_iff.mp (oi h7)
  obtain ⟨w4, rfl, ww4, a4⟩ := splitBytes_some_iff.mp (oi h9)
  obtain ⟨x1, x2⟩ := hexOrInvalid_ok.mp h3
  obtain ⟨y1, y2⟩ := hexOrInvalid_ok.mp h4
  obtain ⟨z1, z2⟩ := hexOrInvalid_ok.mp h8
  replace h := Except.ok.inj h
  refine ⟨s, t, m, o, dev, rest, w1, w2, w3, w4, by simp, (isAsciiWs_iff _).mp ww1,
    (isAsciiWs_iff _).mp ww2, (isAsciiWs_iff _).mp ww3, (isAsciiWs_iff _).mp ww4,
    by rw [← h]; exact x1, by rw [← h]; exact y1, by rw [← h]; exact z1,
    by rw [← h]; exact x2, by rw [← h]; exact y2, by rw [← h]; exact z2,
    fun b hb => (isAsciiWs_false_iff b).mp (a2 b hb),
    fun b hb => (isAsciiWs_false_iff b).mp (a4 b hb), ?_, by rw [← h], ?_⟩
  · have h6 := oi h6
    unfold parseModeStr at h6
    split at h6
    · rename_i r w x more _
      refine ⟨r, w, x, more, rfl, ?_⟩
      rw [← h]
      simp only [Option.some.injEq] at h6
      rw [← h6]
      by_cases hr : r = 114 <;> by_cases hw : w = 119 <;> by_cases hx : x = 120 <;>
        simp [hr, hw, hx, permR, permW, permX]
    · cases h6
  · cases hs : splitBytes rest isAsciiWs with
    | none =>
      rw [hs] at h
      refine ⟨[], by rw [← h], Or.inl ⟨rfl, fun b hb => ?_⟩⟩
      exact (isAsciiWs_false_iff b).mp (splitBytes_none_iff.mp hs b hb)
    | some q =>
      obtain ⟨ino, tl⟩ := q
      rw [hs] at h
      obtain ⟨w5, rfl, ww5, a5⟩ := splitBytes_some_iff.mp hs
      obtain ⟨pre, post, k1, k2, k3, k4, k5⟩ := trimAscii_split tl
      refine ⟨trimAscii tl, by rw [← h], Or.inr ⟨ino, w5, pre, post, by rw [← k1],
        fun b hb => (isAsciiWs_false_iff b).mp (a5 b hb), (isAsciiWs_iff _).mp ww5,
        fun b hb => (isAsciiWs_iff b).mp (k2 b hb), fun b hb => (isAsciiWs_iff b).mp (k3 b hb),
        fun b hb => (isAsciiWs_false_iff b).mp (k4 b hb),
        fun b hb => (isAsciiWs_false_iff b).mp (k5 b hb)⟩⟩

theorem fromRadix16Loop_panic (s : Bytes) (k a : Nat) (ha : a < 16 ^ k)
    (h : fromRadix16Loop s a = .error .panic) :
    ∃ f b, s = f ++ b ∧ (∀ x ∈ f, IsDigit 16 x) ∧ 16 < f.length + k := by
  induction s generalizing k a with
  | nil => simp [fromRadix16Loop] at h
  | cons c t ih =>
    simp only [fromRadix16Loop, asciiToHexdigit_eq] at h
    by_cases hd : IsDigit 16 c
    · rw [if_pos hd] at h
      simp only at h
      have hlt : a * 16 + digitVal c < 16 ^ (k + 1) := by
        have : digitVal c < 16 := hd
        rw [Nat.pow_succ]; omega
      by_cases hb : a * 16 + digitVal c < u64Size
      · rw [if_pos hb] at h
        obtain ⟨f, b, rfl, h2, h3⟩ := ih (k + 1) _ hlt h
        refine ⟨c :: f, b, rfl, ?_, by simp; omega⟩
        intro x hx
        rcases List.mem_cons.mp hx with rfl | hx
        · exact hd
        · exact h2 x hx
      · refine ⟨[c], t, rfl, by simpa using hd, ?_⟩
        by_contra hk
        have hle : 16 ^ (k + 1) ≤ 16 ^ 16 := Nat.pow_le_pow_right (by omega) (by simp at hk; omega)
        unfold u64Size at hb
        norm_num at hle hb
        omega
    · rw [if_neg hd] at h
      cases h

/-- **C16** a line that is refused is invalid data, unless it contains a run of more than 16
hexadecimal digits (which the kernel never prints in these fields): these may panic the parser. -/
theorem C16_errors (pid : Nat) (line : Bytes) (e : Err) (h : parseMapsLine line pid = .error e) :
    e = .invalidData ∨
    (e = .panic ∧ ∃ a f b, line = a ++ f ++ b ∧ (∀ x ∈ f, IsDigit 16 x) ∧ 16 < f.length) := by
  have oi {α : Type} {x : Option α} {e : Err} (h : orInvalid x = .error e) : e = .invalidData := by
    cases x with
    | none => cases h; rfl
    | some y => cases h
  have os {α : Type} {x : Option α} {a : α} (h : orInvalid x = .ok a) : x = some a := by
    cases x with
    | none => cases h
    | some y => cases h; rfl
  have hx {s : Bytes} {e : Err} (a b : Bytes) (hl : line = a ++ s ++ b) (h : hexOrInvalid s = .error e) :
      e = .invalidData ∨
      (e = .panic ∧ ∃ a f b, line = a ++ f ++ b ∧ (∀ x ∈ f, IsDigit 16 x) ∧ 16 < f.length) := by
    unfold hexOrInvalid at h
    split at h
    · cases h
    · cases h; exact Or.inl rfl
    · rename_i hp
      cases h
      obtain ⟨f, b', rfl, h2, h3⟩ := fromRadix16Loop_panic s 0 0 (by simp) hp
      exact Or.inr ⟨rfl, a, f, b' ++ b, by rw [hl]; simp, h2, by simpa using h3⟩
  unfold parseMapsLine at h
  rcases bind_err h with h | ⟨⟨addr, l1⟩, h1, h⟩
  · exact Or.inl (oi h)
  obtain ⟨w1, e1, -, -⟩ := splitBytes_some_iff.mp (os h1)
  rcases bind_err h with h | ⟨⟨s, t⟩, h2, h⟩
  · exact Or.inl (oi h)
  have h2 := os h2
  rw [splitOnce_eq] at h2
  obtain ⟨w0, e2, -, -⟩ := splitBytes_some_iff.mp h2
  simp only at h
  rcases bind_err h with h | ⟨start, h3, h⟩
  · exact hx [] (w0 :: t ++ w1 :: l1) (by rw [e1, e2]; simp) h
  rcases bind_err h with h | ⟨stop, h4, h⟩
  · exact hx (s ++ [w0]) (w1 :: l1) (by rw [e1, e2]; simp) h
  rcases bind_err h with h | ⟨⟨m, l2⟩, h5, h⟩
  · exact Or.inl (oi h)
  obtain ⟨w2, e3, -, -⟩ := splitBytes_some_iff.mp (os h5)
  rcases bind_err h with h | ⟨perm, h6, h⟩
  · exact Or.inl (oi h)
  rcases bind_err h with h | ⟨⟨o, l3⟩, h7, h⟩
  · exact Or.inl (oi h)
  obtain ⟨w3, e4, -, -⟩ := splitBytes_some_iff.mp (os h7)
  rcases bind_err h with h | ⟨offset, h8, h⟩
  · exact hx (addr ++ w1 :: m ++ [w2]) (w3 :: l3) (by simp only at e1 e3 e4; rw [e1, e3, e4]; simp) h
  rcases bind_err h with h | ⟨⟨dev, rest⟩, h9, h⟩
  · exact Or.inl (oi h)
  cases h

example : parseMapsLine (ascii "11112222333344445-2 r-xp 0 0:0 0\n") 1 = .error .panic ∧
    parseMapsLine (ascii "1000 r-xp 0 0:0 0\n") 1 = .error .invalidData ∧
    parseMapsLine (ascii "1000-2000 rx 0 0:0 0\n") 1 = .error .invalidData := by decide +kernel

/-! ### The file -/

theorem printed_line {v : Vma} {line : Bytes} (h : Printed v line) (hn : ∀ b ∈ v.name, b ≠ 10) :
    ∃ s, (∀ b ∈ s, b ≠ 10) ∧ line = s ++ [10] := by
  obtain ⟨s, e, o, dev, ino, pad, hs, he, ho, hd, hi, rfl⟩ := h
  refine ⟨_, ?_, rfl⟩
  have nb {b : UInt8} (h : ¬ Blank b) : b ≠ 10 := by rintro rfl; exact h (by decide)
  intro b hb
  simp only [List.mem_append, List.mem_singleton] at hb
  rcases hb with ((((((((((((hb | hb) | hb) | hb) | hb) | hb) | hb) | hb) | hb) | hb) | hb) | hb) | hb) | hb
  · exact nb (digit_not_blank (hs.1 b hb))
  · subst hb; decide
  · exact nb (digit_not_blank (he.1 b hb))
  · subst hb; decide
  · exact nb (permField_not_blank _ _ _ _ b hb)
  · subst hb; decide
  · exact nb (digit_not_blank (ho.1 b hb))
  · subst hb; decide
  · exact nb (hd b hb)
  · subst hb; decide
  · exact nb (hi b hb)
  · subst hb; decide
  · rw [List.eq_of_mem_replicate hb]; decide
  · exact hn b hb

/-- A mapping as the kernel reports it: 64 bit values, a name without newline (the kernel
prints these as `\\012`) that does not start or end in blanks. -/
def Regular (v : Vma) : Prop :=
  v.start < 2 ^ 64 ∧ v.stop < 2 ^ 64 ∧ v.offset < 2 ^ 64 ∧ (∀ b ∈ v.name, b ≠ 10) ∧
  (∀ b, v.name.head? = some b → ¬ Blank b) ∧ (∀ b, v.name.getLast? = some b → ¬ Blank b)

/-- **C17** the entries of a maps file are exactly its readable or executable mappings, in
order. -/
theorem C17_entries (pid : Nat) (vs : List Vma) (lines : List Bytes)
    (h : List.Forall₂ Printed vs lines) (hr : ∀ v ∈ vs, Regular v) :
    parseFiltered lines.flatten pid =
      (vs.filter (fun v => v.r || v.x)).map (fun v => .ok (reported pid v)) := by
  have hl : splitLines lines.flatten = lines := by
    apply splitLines_join
    intro l hl
    obtain ⟨i, hi⟩ := List.mem_iff_getElem?.mp hl
    have hlen := h.length_eq
    obtain ⟨hil, hiv⟩ := List.getElem?_eq_some_iff.mp hi
    have := (List.forall₂_iff_get.mp h).2 i (by omega) hil
    simp only [List.get_eq_getElem, hiv] at this
    exact printed_line this (hr _ (List.getElem_mem _)).2.2.2.1
  unfold parseFiltered parseFile
  rw [hl]
  clear hl
  induction h with
  | nil => rfl
  | @cons v l vs ls hv _ ih =>
    obtain ⟨r1, r2, r3, r4, r5, r6⟩ := hr v (by simp)
    simp only [List.map_cons, C16_parse_printed_partial pid v l hv r1 r2 r3 r5 r6]
    have hf : filterRelevant (reported pid v) = (v.r || v.x) := by
      unfold filterRelevant reported
      cases v.r <;> cases v.w <;> cases v.x <;> simp [permR, permX]
    have := ih (fun x hx => hr x (by simp [hx]))
    rw [List.filter_cons, List.filter_cons]
    simp only [hf]
    cases hb : (v.r || v.x) with
    | true => simp only [if_true, List.map_cons]; rw [this]
    | false => simp only [Bool.false_eq_true, if_false]; rw [this]

/-- **C17** collecting the entries returns them all. -/
theorem C17_collect (pid : Nat) (vs : List Vma) (lines : List Bytes)
    (h : List.Forall₂ Printed vs lines) (hr : ∀ v ∈ vs, Regular v) :
    collect (parseFiltered lines.flatten pid) =
      .ok ((vs.filter (fun v => v.r || v.x)).map (reported pid)) := by
  rw [C17_entries pid vs lines h hr]
  induction vs.filter (fun v => v.r || v.x) with
  | nil => rfl
  | cons v t ih => simp only [List.map_cons, collect, ih]

/-- **C17** a line that does not parse is reported as an error in its place, and nothing else
changes. -/
theorem C17_malformed (pid : Nat) (before line after : Bytes) (e : Err)
    (hb : before = [] ∨ ∃ s, before = s ++ [10]) (hl : ∀ b ∈ line, b ≠ 10)
    (he : parseMapsLine (line ++ [10]) pid = .error e) :
    parseFiltered (before ++ (line ++ [10]) ++ after) pid =
      parseFiltered before pid ++ .error e :: parseFiltered after pid := by
  have key : splitLines (before ++ (line ++ [10]) ++ after) =
      splitLines before ++ (line ++ [10]) :: splitLines after := by
    have hj : ∀ l ∈ splitLines before, ∃ s, (∀ b ∈ s, b ≠ 10) ∧ l = s ++ [10] := by
      intro l hl
      obtain ⟨h1, h2⟩ := splitLines_lines before
      obtain ⟨s, k1, k2⟩ := h1 l hl
      rcases k2 with k2 | ⟨rfl, k3⟩
      · exact ⟨s, k1, k2⟩
      · exfalso
        rcases hb with rfl | ⟨q, rfl⟩
        · simp [splitLines] at hl
        · -- the last line ends in a newline because the text does
          have hne : splitLines (q ++ [10]) ≠ [] := by
            intro hnil
            have := splitLines_flatten (q ++ [10])
            rw [hnil] at this
            simp at this
          have hfl := splitLines_flatten (q ++ [10])
          rw [← List.dropLast_append_getLast hne] at hl hfl
          rcases List.mem_append.mp hl with hl | hl
          · obtain ⟨s', rfl⟩ := h2 _ hl
            exact k1 10 (by simp) rfl
          · simp only [List.mem_singleton] at hl
            rw [List.flatten_append, List.flatten_singleton, ← hl] at hfl
            have hlast := congrArg List.getLast? hfl
            rw [List.getLast?_append_of_ne_nil _ k3] at hlast
            simp only [List.getLast?_append, List.getLast?_singleton, Option.some_or] at hlast
            exact k1 10 (List.mem_of_getLast? hlast) rfl
    have h3 : before ++ (line ++ [10]) ++ after =
        (splitLines before ++ [line ++ [10]]).flatten ++ after := by
      rw [List.flatten_append, splitLines_flatten, List.flatten_singleton]
    have h4 : ∀ (ls : List Bytes) (t : Bytes), (∀ l ∈ ls, ∃ s, (∀ b ∈ s, b ≠ 10) ∧ l = s ++ [10]) →
        splitLines (ls.flatten ++ t) = ls ++ splitLines t := by
      intro ls t hls
      induction ls with
      | nil => rfl
      | cons l ls ih =>
        obtain ⟨s, k1, rfl⟩ := hls l (by simp)
        rw [List.flatten_cons, List.append_assoc (s ++ [10]), splitLines_append s _ k1,
          ih (fun x hx => hls x (by simp [hx]))]
        rfl
    rw [h3, h4]
    · simp
    · intro l hl'
      rcases List.mem_append.mp hl' with hl' | hl'
      · exact hj l hl'
      · simp only [List.mem_singleton] at hl'
        exact ⟨line, hl, hl'⟩
  unfold parseFiltered parseFile
  rw [key, List.map_append, List.map_cons, List.filter_append, List.filter_cons, he]
  simp

/-- **C17** collecting stops with the first error. -/
theorem C17_collect_error (pid : Nat) (before line after : Bytes) (l : List Entry) (e : Err)
    (hb : before = [] ∨ ∃ s, before = s ++ [10]) (hl : ∀ b ∈ line, b ≠ 10)
    (hok : collect (parseFiltered before pid) = .ok l)
    (he : parseMapsLine (line ++ [10]) pid = .error e) :
    collect (parseFiltered (before ++ (line ++ [10]) ++ after) pid) = .error e := by
  rw [C17_malformed pid before line after e hb hl he]
  generalize parseFiltered before pid = p at hok
  induction p generalizing l with
  | nil => rfl
  | cons x t ih =>
    cases x with
    | error e' => cases hok
    | ok a =>
      simp only [collect, List.cons_append] at hok ⊢
      cases ht : collect t with
      | error e' => rw [ht] at hok; cases hok
      | ok l' => rw [ih l' ht]

/-- **C17** an empty line is an error (a comment in the source says it would be ignored). -/
theorem C17_empty_line_refused (pid : Nat) : parseMapsLine [10] pid = .error .invalidData := rfl

example : parseFiltered (ascii "1-2 r--p 0 0:0 0\n2-3 ---p 0 0:0 0\n\n3-4 --xp 0 0:0 0 [vdso]\n4-5 -w-p 0 0:0 0\n") 1 =
    [.ok ⟨1, 2, 4, 0, none, none⟩, .error .invalidData,
     .ok ⟨3, 4, 1, 0, some (.component (ascii "[vdso]")), none⟩] := by decide +kernel

end Blazesym.Maps
