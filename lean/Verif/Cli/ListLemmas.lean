import Verif.Cli.ReadLemmas

/-! Helper lemmas: what `normalize` and `inspect` print is read back. -/

set_option autoImplicit false

namespace Blazesym.Cli
open Blazesym.Util Blazesym.Spec Blazesym.Spec.Cli
open Blazesym.Normalize (UserMeta)

/-! ### Build IDs -/

theorem fmtByte_eq (b : UInt8) : fmtByte b = [digitChar (b.toNat / 16), digitChar (b.toNat % 16)] := by
  have hb : b.toNat < 256 := b.toNat_lt
  unfold fmtByte fmtHex
  by_cases h : b.toNat < 16
  · have h0 : b.toNat / 16 = 0 := by omega
    rw [show fmtLoop 16 16 b.toNat = [digitChar b.toNat] by rw [fmtLoop, if_pos h], h0, Nat.mod_eq_of_lt h]
    rfl
  · rw [show fmtLoop 16 16 b.toNat = [digitChar (b.toNat / 16), digitChar (b.toNat % 16)] by
      rw [fmtLoop, if_neg h, fmtLoop, if_pos (by omega)]; rfl]
    rfl

theorem isDigit_digitChar {d : Nat} (h : d < 16) : IsDigit 16 (digitChar d) := by
  unfold IsDigit
  rw [digitVal_digitChar h]
  exact h

theorem hexBytes_format (id : Bytes) : hexBytes (formatBuildIdBytes id) = some id := by
  induction id with
  | nil => rfl
  | cons b id ih =>
    have hb : b.toNat < 256 := b.toNat_lt
    have h1 : b.toNat / 16 < 16 := by omega
    have h2 : b.toNat % 16 < 16 := by omega
    rw [formatBuildIdBytes, fmtByte_eq]
    simp only [List.cons_append, List.nil_append, hexBytes]
    rw [if_pos ⟨isDigit_digitChar h1, isDigit_digitChar h2⟩, ih, digitVal_digitChar h1, digitVal_digitChar h2]
    simp only [Option.map_some, Option.some.injEq, List.cons.injEq, and_true]
    rw [show 16 * (b.toNat / 16) + b.toNat % 16 = b.toNat by omega]
    exact UInt8.ofNat_toNat

theorem digit_format (id : Bytes) : ∀ c ∈ formatBuildIdBytes id, IsDigit 16 c := by
  induction id with
  | nil => simp [formatBuildIdBytes]
  | cons b id ih =>
    have hb : b.toNat < 256 := b.toNat_lt
    rw [formatBuildIdBytes, fmtByte_eq]
    intro c hc
    simp only [List.cons_append, List.nil_append, List.mem_cons] at hc
    rcases hc with rfl | rfl | hc
    · exact isDigit_digitChar (by omega)
    · exact isDigit_digitChar (by omega)
    · exact ih c hc

/-! ### `normalize` -/

theorem metaText_shown {display : Bytes → Bytes} {output : Nat} (ho : output < 2 ^ 64) {m : UserMeta}
    (hp : PlainMeta display m) {f : Option InFile} (hs : Shown display output m f) :
    ∃ t, metaText display output m = .ok t ∧ (10 : UInt8) ∉ t ∧
      (match f with | none => t = ascii "<unknown>" | some f => t ≠ ascii "<unknown>" ∧ inFile t = some f) := by
  have hoff : (10 : UInt8) ∉ fmtAltHex output := not_numChar (by decide) (numChar_altHex ho)
  have hsp : (32 : UInt8) ∉ fmtAltHex output := not_numChar (by decide) (numChar_altHex ho)
  have hin : ascii " in " = 32 :: [105, 110, 32] := by decide
  have hne : ∀ x : Bytes, ascii "file offset " ++ x ≠ ascii "<unknown>" := by
    intro x hx
    have h1 : (ascii "file offset " ++ x).head? = some 102 := rfl
    rw [hx] at h1
    exact absurd h1 (by decide)
  have key : ∀ s : Bytes, inFile (ascii "file offset " ++ (fmtAltHex output ++ (ascii " in " ++ s))) =
      match cut (ascii " (build ID: ") s with
      | none => some ⟨output, s, none⟩
      | some (path, s) => (beforeEnd (ascii ")") s).bind fun s => (hexBytes s).map fun id => ⟨output, path, some id⟩ := by
    intro s
    unfold inFile
    rw [afterStart_append]
    simp only [Option.bind_some]
    rw [hin, cut_head _ hsp]
    simp only [Option.bind_some, hex_fmtAltHex ho]
    rfl
  cases hs with
  | unknown r => exact ⟨_, rfl, by decide, rfl⟩
  | apk path =>
    refine ⟨_, rfl, ?_, ?_⟩
    · simp only [List.mem_append, not_or]
      exact ⟨⟨⟨by decide, hoff⟩, by decide⟩, hp.1⟩
    · simp only [List.append_assoc]
      refine ⟨hne _, ?_⟩
      rw [key, cut_id_none hp.2]
  | elf path id =>
    cases id with
    | none =>
      refine ⟨_, rfl, ?_, ?_⟩
      · simp only [List.mem_append, not_or, formatBuildId]
        exact ⟨⟨⟨⟨by decide, hoff⟩, by decide⟩, hp.1⟩, by simp⟩
      · simp only [List.append_assoc, formatBuildId, List.append_nil]
        refine ⟨hne _, ?_⟩
        rw [key, cut_id_none hp.2]
    | some id =>
      refine ⟨_, rfl, ?_, ?_⟩
      · simp only [List.mem_append, not_or, formatBuildId]
        refine ⟨⟨⟨⟨by decide, hoff⟩, by decide⟩, hp.1⟩, ⟨by decide, ?_⟩, by decide⟩
        intro hc
        exact absurd (digit_format id _ hc) (by decide)
      · simp only [List.append_assoc, formatBuildId]
        refine ⟨hne _, ?_⟩
        rw [key, cut_id hp.2]
        simp only
        rw [beforeEnd_append]
        simp only [Option.bind_some, hexBytes_format, Option.map_some]

theorem normalizedLine_text {display : Bytes → Bytes} {addr output : Nat} (ha : addr < 2 ^ 64) (ho : output < 2 ^ 64)
    {m : UserMeta} (hp : PlainMeta display m) {f : Option InFile} (hs : Shown display output m f) :
    ∃ t, metaText display output m = .ok t ∧ (10 : UInt8) ∉ fmtAddr addr ++ ascii ": " ++ t ∧
      normalizedLine (fmtAddr addr ++ ascii ": " ++ t) = some (addr, f) := by
  obtain ⟨t, h1, h2, h3⟩ := metaText_shown ho hp hs
  refine ⟨t, h1, ?_, ?_⟩
  · simp only [List.mem_append, not_or]
    exact ⟨⟨not_numChar (by decide) (numChar_addr ha), by decide⟩, h2⟩
  · unfold normalizedLine
    rw [List.append_assoc, show ascii ": " = 58 :: [32] by decide,
      cut_head _ (not_numChar (by decide) (numChar_addr ha))]
    simp only [Option.bind_some, hex_fmtAddr ha]
    cases f with
    | none => simp only at h3; rw [if_pos h3]
    | some f => simp only at h3; rw [if_neg h3.1, h3.2]; rfl

/-- The outputs of which the records can be shown. -/
def ShownAll (display : Bytes → Bytes) (metas : List UserMeta) (outs : List (Nat × Nat)) (fs : List (Option InFile)) :
    Prop :=
  List.Forall₂ (fun o f => ∃ m, metas[o.2]? = some m ∧ o.1 < 2 ^ 64 ∧ PlainMeta display m ∧ Shown display o.1 m f) outs fs

theorem printNormalized_lines {display : Bytes → Bytes} {metas : List UserMeta} (addrs : List Nat)
    (outs : List (Nat × Nat)) (fs : List (Option InFile)) (ha : ∀ a ∈ addrs, a < 2 ^ 64)
    (hl : outs.length = addrs.length) (h : ShownAll display metas outs fs) :
    ∃ ls : List Bytes, printNormalized display metas addrs outs = ⟨(ls.map println).flatten, .ok ()⟩ ∧
      (∀ l ∈ ls, (10 : UInt8) ∉ l) ∧ ls.mapM normalizedLine = some (addrs.zip fs) := by
  induction h generalizing addrs with
  | nil =>
    cases addrs with
    | nil => exact ⟨[], rfl, by simp, rfl⟩
    | cons a addrs => simp at hl
  | cons h hrest ih =>
    rename_i o f outs fs
    cases addrs with
    | nil => simp at hl
    | cons a addrs =>
      obtain ⟨out, idx⟩ := o
      obtain ⟨m, hm, ho, hp, hs⟩ := h
      obtain ⟨t, h1, h2, h3⟩ := normalizedLine_text (ha a (by simp)) ho hp hs
      obtain ⟨ls, k1, k2, k3⟩ := ih addrs (fun a h => ha a (List.mem_cons_of_mem _ h)) (by simpa using hl)
      refine ⟨(fmtAddr a ++ ascii ": " ++ t) :: ls, ?_, ?_, ?_⟩
      · simp only at hm h1
        simp only [printNormalized, hm, h1, k1]
        simp [println]
      · intro l hl
        rcases List.mem_cons.mp hl with rfl | hl
        · exact h2
        · exact k2 l hl
      · simp only [List.mapM_cons, h3, k3]
        rfl

/-- What is printed before an address with a symbol of the vDSO, or with a record that does not exist. -/
theorem printNormalized_stops {display : Bytes → Bytes} {metas : List UserMeta} (addrs addrs' : List Nat) (a : Nat)
    (outs outs' : List (Nat × Nat)) (o : Nat × Nat) (fs : List (Option InFile)) (ha : ∀ a ∈ addrs, a < 2 ^ 64)
    (hl : outs.length = addrs.length) (h : ShownAll display metas outs fs) (s : Symbolize.Sym)
    (ho : metas[o.2]? = some (.sym s)) :
    ∃ ls : List Bytes, printNormalized display metas (addrs ++ a :: addrs') (outs ++ o :: outs') =
        ⟨(ls.map println).flatten ++ fmtAddr a ++ ascii ": ", .error .panic⟩ ∧
      (∀ l ∈ ls, (10 : UInt8) ∉ l) ∧ ls.mapM normalizedLine = some (addrs.zip fs) := by
  induction h generalizing addrs with
  | nil =>
    cases addrs with
    | nil =>
      obtain ⟨out, idx⟩ := o
      simp only at ho
      exact ⟨[], by simp [printNormalized, ho, metaText], by simp, rfl⟩
    | cons a addrs => simp at hl
  | cons h hrest ih =>
    rename_i o' f outs fs
    cases addrs with
    | nil => simp at hl
    | cons b addrs =>
      obtain ⟨out, idx⟩ := o'
      obtain ⟨m, hm, hout, hp, hs⟩ := h
      obtain ⟨t, h1, h2, h3⟩ := normalizedLine_text (ha b (by simp)) hout hp hs
      obtain ⟨ls, k1, k2, k3⟩ := ih addrs (fun a h => ha a (List.mem_cons_of_mem _ h)) (by simpa using hl)
      refine ⟨(fmtAddr b ++ ascii ": " ++ t) :: ls, ?_, ?_, ?_⟩
      · simp only at hm h1
        simp only [List.cons_append, printNormalized, hm, h1, k1]
        simp [println]
      · intro l hl
        rcases List.mem_cons.mp hl with rfl | hl
        · exact h2
        · exact k2 l hl
      · simp only [List.mapM_cons, h3, k3]
        rfl

/-! ### `inspect` -/

/-- The text of a size. -/
def sizeText : Option Nat → Bytes
  | some n => fmtDec n
  | none => ascii "N/A"

/-- A line, without the newline. -/
def symLine (width : Nat) (s : CApi.SymInfo) : Bytes :=
  s.name ++ ascii ":" ++ List.replicate (width - charCount (s.name ++ ascii ":")) 32 ++ ascii " " ++ fmtAddr s.addr ++
    (ascii " (size=" ++ (sizeText s.size ++ (ascii ")" ++
      List.replicate (11 - charCount (ascii "(size=" ++ sizeText s.size ++ ascii ")")) 32))) ++
    (ascii " [" ++ (kindOf s.symType ++ ascii "]"))

theorem printSym_line (width : Nat) (s : CApi.SymInfo) : printSym width s = println (symLine width s) := by
  unfold printSym symLine padRight sizeText
  congr 1
  have h1 : ascii " (size=" = ascii " " ++ ascii "(size=" := by decide
  have h2 : typeText s.symType = ascii " [" ++ (kindOf s.symType ++ ascii "]") := by
    cases s.symType <;> decide
  rw [h1, h2]
  simp only [List.append_assoc]
  rfl

theorem nameWidth_le {syms : List CApi.SymInfo} {s : CApi.SymInfo} (h : s ∈ syms) :
    s.name.length + 1 ≤ nameWidth syms := by
  unfold nameWidth
  cases hm : (syms.map fun s => s.name.length).max? with
  | none => rw [List.max?_eq_none_iff, List.map_eq_nil_iff] at hm; rw [hm] at h; cases h
  | some w =>
    have := (List.max?_eq_some_iff.mp hm).2 s.name.length (List.mem_map_of_mem h)
    simp only
    omega

theorem nameWidth_lt {syms : List CApi.SymInfo} (h : ∀ s ∈ syms, s.name.length < 65535) :
    nameWidth syms < 65536 := by
  unfold nameWidth
  cases hm : (syms.map fun s => s.name.length).max? with
  | none => simp
  | some w =>
    obtain ⟨s, hs, rfl⟩ := List.mem_map.mp (List.max?_eq_some_iff.mp hm).1
    have := h s hs
    simp only
    omega

theorem printSymInfos_lines (syms : List CApi.SymInfo) (h : ∀ s ∈ syms, s.name.length < 65535) :
    printSymInfos syms = ⟨((syms.map (symLine (nameWidth syms))).map println).flatten, .ok ()⟩ := by
  unfold printSymInfos
  rw [if_pos (nameWidth_lt h), List.map_map]
  congr 2
  exact List.map_congr_left fun s _ => printSym_line _ s

theorem printSymInfos_panic {syms : List CApi.SymInfo} {s : CApi.SymInfo} (h : s ∈ syms)
    (hl : 65535 ≤ s.name.length) : printSymInfos syms = ⟨[], .error .panic⟩ := by
  unfold printSymInfos
  have := nameWidth_le h
  rw [if_neg (by omega)]
  rfl

theorem numChar_size {size : Option Nat} (h : ∀ n ∈ size, n < 2 ^ 64) {c : UInt8} (hc : c ∈ sizeText size) :
    NumChar c ∨ c ∈ ascii "N/A" := by
  cases size with
  | none => exact Or.inr hc
  | some n => exact Or.inl (numChar_dec (h n rfl) c hc)

theorem not_size {size : Option Nat} (h : ∀ n ∈ size, n < 2 ^ 64) {c : UInt8}
    (hc : ¬ ((IsDigit 16 c ∨ c = 120) ∨ c ∈ ascii "N/A")) : c ∉ sizeText size :=
  fun hm => hc (numChar_size h hm)

theorem listedLine_line (width : Nat) {s : CApi.SymInfo} (h : PlainSym s) :
    listedLine (symLine width s) = some (listedOf s) ∧ (10 : UInt8) ∉ symLine width s := by
  obtain ⟨hn, ha, hs⟩ := h
  have hkind : ∀ c : UInt8, c ∈ kindOf s.symType ++ ascii "]" → c ≠ 91 ∧ c ≠ 10 := by
    cases s.symType <;> decide
  have hnl : ∀ n : Nat, (10 : UInt8) ∉ List.replicate n (32 : UInt8) := by
    intro n hm; exact absurd (List.mem_replicate.mp hm).2 (by decide)
  refine ⟨?_, ?_⟩
  · unfold listedLine symLine
    rw [show ascii " [" = [32] ++ [91] by decide, cutLast_head _ (fun hc => (hkind _ hc).1 rfl)]
    simp only [Option.bind_some]
    rw [beforeEnd_append]
    simp only [Option.bind_some]
    rw [show ascii " (size=" = ascii " (size" ++ [61] by decide, cutLast_head]
    · simp only [Option.bind_some]
      rw [show ascii ")" = 41 :: [] by decide, cut_head _ (not_size hs (by decide))]
      simp only [Option.bind_some]
      rw [List.append_assoc _ (ascii " "), show ascii " " = [] ++ [32] by decide,
        cutLast_head _ (not_numChar (by decide) (numChar_addr ha))]
      simp only [Option.bind_some, hex_fmtAddr ha]
      have ht : ∀ k : Nat, ((s.name ++ ascii ":" ++ List.replicate k 32).reverse.dropWhile (· == 32)).reverse =
          s.name ++ ascii ":" := by
        intro k
        rw [List.reverse_append, List.reverse_replicate, List.dropWhile_append_of_pos
          (by intro x hx; rw [(List.mem_replicate.mp hx).2]; rfl), List.reverse_append]
        simp [ascii]
      rw [ht, beforeEnd_append]
      simp only [Option.bind_some]
      rw [if_pos (by simp [List.all_eq_true])]
      unfold listedOf
      cases hsz : s.size with
      | none => simp [sizeText]
      | some n =>
        have hn : n < 2 ^ 64 := hs n (by simp [hsz])
        have hne : sizeText (some n) ≠ ascii "N/A" := by
          intro hc
          have : (78 : UInt8) ∉ sizeText (some n) := not_numChar (by decide) (numChar_dec hn)
          rw [hc] at this
          exact this (by decide)
        rw [if_neg hne, show number 10 (sizeText (some n)) = some n from number_fmtDec hn]
        rfl
    · simp only [List.mem_append, not_or]
      refine ⟨not_size hs (by decide), by decide, ?_⟩
      intro hm; exact absurd (List.mem_replicate.mp hm).2 (by decide)
  · unfold symLine
    have h1 : (10 : UInt8) ∉ fmtAddr s.addr := not_numChar (by decide) (numChar_addr ha)
    have h2 : (10 : UInt8) ∉ sizeText s.size := not_size hs (by decide)
    have h3 : (10 : UInt8) ∉ kindOf s.symType ++ ascii "]" := fun hc => (hkind _ hc).2 rfl
    simp only [List.mem_append, not_or] at h3 ⊢
    exact ⟨⟨⟨⟨⟨⟨hn, by decide⟩, hnl _⟩, by decide⟩, h1⟩, by decide, h2, by decide, hnl _⟩, by decide, h3⟩

theorem mapM_some {α β : Type} (f : α → Option β) (g : α → β) (l : List α) (h : ∀ a ∈ l, f a = some (g a)) :
    l.mapM f = some (l.map g) := by
  induction l with
  | nil => rfl
  | cons a l ih =>
    rw [List.mapM_cons, h a (by simp), ih (fun a ha => h a (List.mem_cons_of_mem _ ha))]
    rfl

theorem textLines_syms (syms : List CApi.SymInfo) (h : ∀ s ∈ syms, PlainSym s)
    (hl : ∀ s ∈ syms, s.name.length < 65535) :
    textLines (printSymInfos syms).stdout = some (syms.map (symLine (nameWidth syms))) := by
  rw [printSymInfos_lines _ hl, textLines_lines]
  intro l hl
  obtain ⟨s, hs, rfl⟩ := List.mem_map.mp hl
  exact (listedLine_line _ (h s hs)).2

theorem readListed_syms (syms : List CApi.SymInfo) (h : ∀ s ∈ syms, PlainSym s)
    (hl : ∀ s ∈ syms, s.name.length < 65535) :
    readListed (printSymInfos syms).stdout = some (syms.map listedOf) := by
  unfold readListed
  rw [textLines_syms syms h hl]
  simp only [Option.bind_some]
  rw [List.mapM_map]
  exact mapM_some _ _ _ fun s hs => (listedLine_line _ (h s hs)).1

theorem charCount_eq (s : Bytes) : charCount s = chars s := by
  unfold charCount chars
  congr 1
  apply List.filter_congr
  intro b _
  have h1 : (b < 128) ↔ b.toNat < 128 := UInt8.lt_iff_toNat_lt
  have h2 : (128 ≤ b) ↔ 128 ≤ b.toNat := UInt8.le_iff_toNat_le
  have h3 : (b < 192) ↔ b.toNat < 192 := UInt8.lt_iff_toNat_lt
  have h4 : (192 ≤ b) ↔ 192 ≤ b.toNat := UInt8.le_iff_toNat_le
  rw [Bool.eq_iff_iff]
  simp only [Bool.not_eq_true', Bool.and_eq_false_iff, decide_eq_false_iff_not, Bool.or_eq_true, decide_eq_true_eq,
    h1, h2, h3, h4]
  omega

theorem chars_append (a b : Bytes) : chars (a ++ b) = chars a + chars b := by simp [chars]

theorem chars_spaces (k : Nat) : chars (List.replicate k 32) = k := by
  unfold chars
  rw [List.filter_eq_self.mpr]
  · simp
  · intro b hb; rw [(List.mem_replicate.mp hb).2]; rfl

theorem chars_le (a : Bytes) : chars a ≤ a.length := List.length_filter_le _ _

theorem columns (syms : List CApi.SymInfo) (h : ∀ s ∈ syms, PlainSym s) :
    ∀ s ∈ syms, Column (nameWidth syms + 1) (symLine (nameWidth syms) s) s := by
  intro s hs
  have hw := nameWidth_le hs
  refine ⟨s.name ++ ascii ":" ++ List.replicate (nameWidth syms - charCount (s.name ++ ascii ":")) 32 ++ ascii " ",
    fmtAddr s.addr, ascii "(size=" ++ (sizeText s.size ++ (ascii ")" ++
      List.replicate (11 - charCount (ascii "(size=" ++ sizeText s.size ++ ascii ")")) 32)) ++
    (ascii " [" ++ (kindOf s.symType ++ ascii "]")), ?_, ?_, hex_fmtAddr (h s hs).2.1⟩
  · unfold symLine
    rw [show ascii " (size=" = ascii " " ++ ascii "(size=" by decide]
    simp only [List.append_assoc]
  · rw [charCount_eq, chars_append, chars_append, chars_append, chars_spaces]
    have h1 := chars_le s.name
    have h2 : chars (ascii ":") = 1 := by decide
    have h3 : chars (ascii " ") = 1 := by decide
    rw [h2, h3]
    omega

end Blazesym.Cli
