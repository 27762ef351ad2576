import Verif.Cli.MainSpec
import Verif.Util.TextLemmas
import Verif.Util.FormatLemmas

/-! Helper lemmas: what is printed is read back. -/

set_option autoImplicit false

namespace Blazesym.Cli
open Blazesym.Util Blazesym.Spec Blazesym.Spec.Cli
open Blazesym.Symbolize (Symbolized Sym CodeInfo InlinedFn)

/-! ### Cutting -/

theorem cut_append {pat a b : Bytes} (hne : pat ≠ [])
    (h : ∀ i, i < a.length → ¬ pat <+: a.drop i ++ (pat ++ b)) : cut pat (a ++ (pat ++ b)) = some (a, b) := by
  induction a with
  | nil =>
    cases pat with
    | nil => exact absurd rfl hne
    | cons p ps =>
      simp only [List.nil_append, List.cons_append, cut]
      rw [if_pos (by rw [← List.cons_append]; exact List.prefix_append _ _), ← List.cons_append, List.drop_left]
  | cons x a ih =>
    simp only [List.cons_append, cut]
    have h0 := h 0 (by simp)
    simp only [List.drop_zero, List.cons_append] at h0
    rw [if_neg h0, ih (fun i hi => by simpa using h (i + 1) (by simpa using hi))]
    rfl

/-- Nothing is found before, as the pattern's first character does not occur. -/
theorem cut_head {c : UInt8} {ps a : Bytes} (b : Bytes) (h : c ∉ a) :
    cut (c :: ps) (a ++ (c :: ps ++ b)) = some (a, b) := by
  refine cut_append (by simp) ?_
  rintro i hi ⟨t, ht⟩
  have : (a.drop i ++ (c :: ps ++ b)).head? = some a[i] := by
    rw [List.drop_eq_getElem_cons hi]; rfl
  rw [← ht] at this
  simp only [List.cons_append, List.head?_cons, Option.some.injEq] at this
  exact h (this ▸ List.getElem_mem hi)

theorem cut_none {c : UInt8} {ps a : Bytes} (h : c ∉ a) : cut (c :: ps) a = none := by
  induction a with
  | nil => simp [cut]
  | cons x a ih =>
    simp only [List.mem_cons, not_or] at h
    simp only [cut]
    rw [if_neg (by simp only [List.cons_prefix_cons]; exact fun hh => h.1 hh.1), ih h.2]
    rfl

theorem cut_not_infix {pat a : Bytes} (hne : pat ≠ []) (h : ¬ pat <:+: a) : cut pat a = none := by
  induction a with
  | nil => simp [cut, hne]
  | cons x a ih =>
    simp only [cut]
    rw [if_neg (fun hh => h hh.isInfix), ih (fun hh => h (hh.trans (List.infix_cons (List.infix_refl _))))]
    rfl

theorem infix_of_prefix_drop {pat a r : Bytes} {i : Nat} (h : pat <+: a.drop i ++ r) (hl : pat.length ≤ (a.drop i).length) :
    pat <:+: a := by
  have : pat <+: a.drop i := List.prefix_of_prefix_length_le h (List.prefix_append _ _) hl
  exact this.isInfix.trans (List.drop_suffix _ _).isInfix

theorem cut_at {name : Bytes} (h : ¬ ascii " @" <:+: name) (b : Bytes) :
    cut (ascii " @ ") (name ++ (ascii " @ " ++ b)) = some (name, b) := by
  refine cut_append (by decide) ?_
  intro i hi hp
  by_cases hl : 2 ≤ (name.drop i).length
  · exact h (infix_of_prefix_drop ((show ascii " @" <+: ascii " @ " by decide).trans hp) hl)
  · have hpos : 0 < (name.drop i).length := by rw [List.length_drop]; omega
    match hd : name.drop i with
    | [] => rw [hd] at hpos; simp at hpos
    | _ :: _ :: _ => rw [hd] at hl; simp at hl
    | [x] =>
      rw [hd] at hp
      have hs : ascii " @ " = [32, 64, 32] := by decide
      rw [hs] at hp
      simp at hp

theorem cut_at_none {name : Bytes} (h : ¬ ascii " @" <:+: name) : cut (ascii " @ ") name = none :=
  cut_not_infix (by decide) (fun hh => h ((show ascii " @" <:+: ascii " @ " from ⟨[], [32], by decide⟩).trans hh))

theorem cut_id {path : Bytes} (h : ¬ ascii " (build ID:" <:+: path) (b : Bytes) :
    cut (ascii " (build ID: ") (path ++ (ascii " (build ID: " ++ b)) = some (path, b) := by
  refine cut_append (by decide) ?_
  intro i hi hp
  by_cases hl : 11 ≤ (path.drop i).length
  · exact h (infix_of_prefix_drop ((show ascii " (build ID:" <+: ascii " (build ID: " by decide).trans hp) hl)
  · have hpos : 0 < (path.drop i).length := by rw [List.length_drop]; omega
    have hs : ascii " (build ID: " = [32, 40, 98, 117, 105, 108, 100, 32, 73, 68, 58, 32] := by decide
    rw [hs] at hp
    generalize path.drop i = l at hp hl hpos
    match l with
    | [] => simp at hpos
    | [_] | [_, _] | [_, _, _] | [_, _, _, _] | [_, _, _, _, _] | [_, _, _, _, _, _] | [_, _, _, _, _, _, _]
    | [_, _, _, _, _, _, _, _] | [_, _, _, _, _, _, _, _, _] | [_, _, _, _, _, _, _, _, _, _] =>
      simp at hp
    | _ :: _ :: _ :: _ :: _ :: _ :: _ :: _ :: _ :: _ :: _ :: _ => simp at hl

theorem cut_id_none {path : Bytes} (h : ¬ ascii " (build ID:" <:+: path) : cut (ascii " (build ID: ") path = none :=
  cut_not_infix (by decide)
    (fun hh => h ((show ascii " (build ID:" <:+: ascii " (build ID: " from ⟨[], [32], by decide⟩).trans hh))

theorem cutLast_head {c : UInt8} {ps b : Bytes} (a : Bytes) (h : c ∉ b) :
    cutLast (ps ++ [c]) (a ++ (ps ++ [c] ++ b)) = some (a, b) := by
  unfold cutLast
  have h1 : (a ++ (ps ++ [c] ++ b)).reverse = b.reverse ++ (c :: ps.reverse ++ a.reverse) := by simp
  have h2 : (ps ++ [c]).reverse = c :: ps.reverse := by simp
  rw [h1, h2, cut_head _ (by simpa using h)]
  simp

theorem afterStart_append (a b : Bytes) : afterStart a (a ++ b) = some b := by
  simp [afterStart]

theorem beforeEnd_append (a b : Bytes) : beforeEnd b (a ++ b) = some a := by
  simp [beforeEnd]

theorem afterStart_none {c d : UInt8} (ps t : Bytes) (h : c ≠ d) : afterStart (c :: ps) (d :: t) = none := by
  unfold afterStart
  rw [if_neg]
  simp [h]

/-! ### Numbers -/

theorem fmtLoop_ne_nil (base fuel n : Nat) : fmtLoop base (fuel + 1) n ≠ [] := by
  unfold fmtLoop
  split <;> simp

theorem number_fmtHex {n : Nat} (h : n < 2 ^ 64) : number 16 (fmtHex n) = some n := by
  unfold number
  rw [if_pos ⟨fmtLoop_ne_nil _ _ _, (fmtHex_spec n h).1⟩, (fmtHex_spec n h).2]

theorem number_fmtDec {n : Nat} (h : n < 2 ^ 64) : number 10 (fmtDec n) = some n := by
  unfold number
  rw [if_pos ⟨fmtLoop_ne_nil _ _ _, (fmtDec_spec n h).1⟩, (fmtDec_spec n h).2]

theorem numVal_zeros (base k : Nat) (s : Bytes) : numVal base (List.replicate k 48 ++ s) = numVal base s := by
  unfold numVal
  rw [List.foldl_append]
  congr 1
  induction k with
  | zero => rfl
  | succ k ih =>
    rw [List.replicate_succ, List.foldl_cons]
    simpa [digitVal] using ih

theorem number_zeros (k : Nat) {n : Nat} (h : n < 2 ^ 64) : number 16 (List.replicate k 48 ++ fmtHex n) = some n := by
  unfold number
  rw [if_pos, numVal_zeros, (fmtHex_spec n h).2]
  refine ⟨?_, ?_⟩
  · simp only [ne_eq, List.append_eq_nil_iff, not_and]
    exact fun _ => fmtLoop_ne_nil _ _ _
  · intro c hc
    rcases List.mem_append.mp hc with hc | hc
    · rw [(List.mem_replicate.mp hc).2]; decide
    · exact (fmtHex_spec n h).1 c hc

theorem hex_fmtAltHex {n : Nat} (h : n < 2 ^ 64) : hex (fmtAltHex n) = some n := by
  unfold hex fmtAltHex
  rw [afterStart_append]
  exact number_fmtHex h

theorem hex_fmtAddr {n : Nat} (h : n < 2 ^ 64) : hex (fmtAddr n) = some n := by
  unfold hex fmtAddr
  rw [List.append_assoc, afterStart_append]
  exact number_zeros _ h

/-- The characters of numbers. -/
def NumChar (c : UInt8) : Prop := IsDigit 16 c ∨ c = 120

theorem isDigit_mono {c : UInt8} (h : IsDigit 10 c) : IsDigit 16 c := Nat.lt_trans h (by decide)

theorem numChar_altHex {n : Nat} (h : n < 2 ^ 64) : ∀ c ∈ fmtAltHex n, NumChar c := by
  intro c hc
  unfold fmtAltHex at hc
  rcases List.mem_append.mp hc with hc | hc
  · have : ∀ c ∈ ascii "0x", IsDigit 16 c ∨ c = 120 := by decide
    exact this c hc
  · exact Or.inl ((fmtHex_spec n h).1 c hc)

theorem numChar_addr {n : Nat} (h : n < 2 ^ 64) : ∀ c ∈ fmtAddr n, NumChar c := by
  intro c hc
  unfold fmtAddr at hc
  rcases List.mem_append.mp hc with hc | hc
  · rcases List.mem_append.mp hc with hc | hc
    · have : ∀ c ∈ ascii "0x", IsDigit 16 c ∨ c = 120 := by decide
      exact this c hc
    · rw [(List.mem_replicate.mp hc).2]; exact Or.inl (by decide)
  · exact Or.inl ((fmtHex_spec n h).1 c hc)

theorem numChar_dec {n : Nat} (h : n < 2 ^ 64) : ∀ c ∈ fmtDec n, NumChar c :=
  fun c hc => Or.inl (isDigit_mono ((fmtDec_spec n h).1 c hc))

theorem not_numChar {c : UInt8} (h : ¬ (IsDigit 16 c ∨ c = 120)) {s : Bytes} (hs : ∀ c ∈ s, NumChar c) : c ∉ s :=
  fun hc => h (hs c hc)

/-! ### Lines -/

theorem fields_lines (ls : List Bytes) (h : ∀ l ∈ ls, (10 : UInt8) ∉ l) :
    fields (· == 10) (ls.map println).flatten = ls ++ [[]] := by
  induction ls with
  | nil => rfl
  | cons l ls ih =>
    have hl : ∀ b ∈ l, (b == (10 : UInt8)) = false := by
      intro b hb
      have := h l (by simp)
      simp only [beq_eq_false_iff_ne, ne_eq]
      rintro rfl
      exact this hb
    simp only [List.map_cons, List.flatten_cons, println, List.append_assoc]
    rw [show [(10 : UInt8)] ++ (ls.map println).flatten = 10 :: (ls.map println).flatten from rfl,
      fields_sep hl (by decide), ih (fun l hl => h l (List.mem_cons_of_mem _ hl))]
    rfl

theorem textLines_lines (ls : List Bytes) (h : ∀ l ∈ ls, (10 : UInt8) ∉ l) :
    textLines (ls.map println).flatten = some ls := by
  unfold textLines
  rw [fields_lines ls h]
  simp

/-! ### Places -/

theorem toPath_eq (c : CodeInfo) : toPath c = sourcePath c := by
  unfold toPath sourcePath pathJoin
  cases c.dir with
  | none => rfl
  | some dir => simp [ascii]

/-- The text of a place, without the space before it. -/
def placeText (display : Bytes → Bytes) (c : CodeInfo) : Bytes := (codeText display c).drop 1

theorem codeText_eq (display : Bytes → Bytes) (c : CodeInfo) : codeText display c = 32 :: placeText display c := by
  unfold placeText codeText
  split <;> simp [ascii]

theorem fields_colon {a : Bytes} (h : (58 : UInt8) ∉ a) (b : Bytes) :
    fields (· == 58) (a ++ 58 :: b) = a :: fields (· == 58) b :=
  fields_sep (p := (· == 58)) (fun x hx => by
    simp only [beq_eq_false_iff_ne, ne_eq]; rintro rfl; exact h hx) (by decide) b

theorem fields_colon_none {a : Bytes} (h : (58 : UInt8) ∉ a) : fields (· == 58) a = [a] :=
  fields_none (p := (· == 58)) (fun x hx => by
    simp only [beq_eq_false_iff_ne, ne_eq]; rintro rfl; exact h hx)

theorem colon_dec {n : Nat} (h : n < 2 ^ 64) : (58 : UInt8) ∉ fmtDec n :=
  not_numChar (by decide) (numChar_dec h)

theorem newline_dec {n : Nat} (h : n < 2 ^ 64) : (10 : UInt8) ∉ fmtDec n :=
  not_numChar (by decide) (numChar_dec h)

theorem place_text {display : Bytes → Bytes} {c : CodeInfo} (h : PlainPlace display c) :
    place (placeText display c) = some (placeOf display c) ∧ (10 : UInt8) ∉ placeText display c := by
  obtain ⟨h1, h2, h3, h4⟩ := h
  unfold placeText codeText placeOf
  rw [toPath_eq]
  have hs : ascii " " = [32] := by decide
  have hc : ascii ":" = [58] := by decide
  rw [hs, hc]
  cases hl : c.line with
  | none =>
    simp only [List.cons_append, List.nil_append, List.drop_succ_cons, List.drop_zero, if_true]
    exact ⟨by simp [place, fields_colon_none h2], h1⟩
  | some line =>
    have hline : line < 2 ^ 64 := h3 line (by simp [hl])
    cases hcol : c.column with
    | none =>
      simp only [List.cons_append, List.nil_append, List.drop_succ_cons, List.drop_zero, List.append_assoc]
      refine ⟨?_, ?_⟩
      · simp [place, fields_colon h2, fields_colon_none (colon_dec hline), number_fmtDec hline]
      · simp [h1, newline_dec hline]
    | some col =>
      have hcl : col < 2 ^ 64 := h4 col (by simp [hcol])
      simp only [List.cons_append, List.nil_append, List.drop_succ_cons, List.drop_zero, List.append_assoc]
      refine ⟨?_, ?_⟩
      · simp [place, fields_colon h2, fields_colon (colon_dec hline), fields_colon_none (colon_dec hcl),
          number_fmtDec hline, number_fmtDec hcl]
      · simp [h1, newline_dec hline, newline_dec hcl]

/-! ### Frames -/

/-- The line of an inlined function, without the newline. -/
def inlinedText (display : Bytes → Bytes) (f : InlinedFn) : Bytes :=
  List.replicate 16 32 ++ ascii "  " ++ f.name ++
    (f.codeInfo.map fun c => ascii " @" ++ codeText display c).getD [] ++ ascii " [inlined]"

/-- The line of a symbol, without the newline. -/
def symText (display : Bytes → Bytes) (input : Nat) (s : Sym) : Bytes :=
  fmtAddr input ++ ascii ": " ++ s.name ++ ascii " @ " ++ fmtAltHex s.addr ++ ascii "+" ++ fmtAltHex s.offset ++
    (s.codeInfo.map (codeText display)).getD []

theorem inlinedLine_text {display : Bytes → Bytes} {f : InlinedFn} (hn : PlainName f.name)
    (hc : ∀ c ∈ f.codeInfo, PlainPlace display c) :
    inlinedLine (inlinedText display f) = some (f.name, f.codeInfo.map (placeOf display)) ∧
      (10 : UInt8) ∉ inlinedText display f := by
  unfold inlinedText inlinedLine
  have hpre : List.replicate 16 (32 : UInt8) ++ ascii "  " = List.replicate 18 32 := by decide
  have hin : (10 : UInt8) ∉ ascii " [inlined]" := by decide
  have hsp : (10 : UInt8) ∉ List.replicate 18 (32 : UInt8) := by decide
  rw [hpre]
  cases hci : f.codeInfo with
  | none =>
    simp only [Option.map_none, Option.getD_none, List.append_nil, List.append_assoc]
    rw [afterStart_append]
    simp only [Option.bind_some]
    rw [beforeEnd_append]
    simp only [Option.bind_some]
    rw [cut_at_none hn.2]
    exact ⟨rfl, by simp [hn.1, hin]⟩
  | some c =>
    obtain ⟨h1, h2⟩ := place_text (hc c (by simp [hci]))
    simp only [Option.map_some, Option.getD_some, List.append_assoc]
    rw [afterStart_append]
    simp only [Option.bind_some]
    rw [codeText_eq, show f.name ++ (ascii " @" ++ (32 :: placeText display c ++ ascii " [inlined]")) =
      (f.name ++ (ascii " @ " ++ placeText display c)) ++ ascii " [inlined]" by simp [ascii], beforeEnd_append]
    simp only [Option.bind_some]
    rw [cut_at hn.2]
    simp only [h1, Option.map_some]
    have : (10 : UInt8) ∉ ascii " @ " := by decide
    exact ⟨trivial, by simp [hn.1, hin, h2, this]⟩

theorem addressLine_sym {display : Bytes → Bytes} {input : Nat} (hi : input < 2 ^ 64) {s : Sym}
    (hs : PlainAnswer display (.sym s)) :
    addressLine (symText display input s) =
        some (input, some ⟨s.name, s.addr, s.offset, s.codeInfo.map (placeOf display), []⟩) ∧
      inlinedLine (symText display input s) = none ∧ (10 : UInt8) ∉ symText display input s := by
  obtain ⟨hn, ha, ho, hc, -⟩ := hs
  have hcolon : ascii ": " = 58 :: [32] := by decide
  have hplus : ascii "+" = 43 :: [] := by decide
  have hspace : ascii " " = 32 :: [] := by decide
  have hrest : symText display input s = fmtAddr input ++ (ascii ": " ++ (s.name ++ (ascii " @ " ++ (fmtAltHex s.addr ++
      (ascii "+" ++ (fmtAltHex s.offset ++ (s.codeInfo.map (codeText display)).getD [])))))) := by
    simp [symText, List.append_assoc]
  have hne : ∀ x : Bytes, s.name ++ (ascii " @ " ++ x) ≠ ascii "<no-symbol>" := by
    intro x hx
    have h1 : (64 : UInt8) ∈ ascii "<no-symbol>" := hx ▸ by simp [ascii]
    exact absurd h1 (by decide)
  have hnl : (10 : UInt8) ∉ (s.codeInfo.map (codeText display)).getD [] := by
    cases hci : s.codeInfo with
    | none => simp
    | some c =>
      simp only [Option.map_some, Option.getD_some, codeText_eq]
      have := (place_text (hc c (by simp [hci]))).2
      simp [this]
  refine ⟨?_, ?_, ?_⟩
  · rw [hrest]
    unfold addressLine
    rw [hcolon, cut_head _ (not_numChar (by decide) (numChar_addr hi))]
    simp only [Option.bind_some, hex_fmtAddr hi]
    rw [if_neg (hne _)]
    unfold frame
    rw [cut_at hn.2]
    simp only [Option.bind_some]
    rw [hplus, cut_head _ (not_numChar (by decide) (numChar_altHex ha))]
    simp only [Option.bind_some]
    cases hci : s.codeInfo with
    | none =>
      simp only [Option.map_none, Option.getD_none, List.append_nil]
      rw [hspace, cut_none (not_numChar (by decide) (numChar_altHex ho))]
      simp [hex_fmtAltHex ha, hex_fmtAltHex ho]
    | some c =>
      simp only [Option.map_some, Option.getD_some, codeText_eq]
      rw [hspace, show (32 : UInt8) :: placeText display c = 32 :: [] ++ placeText display c from rfl,
        cut_head _ (not_numChar (by decide) (numChar_altHex ho))]
      simp [hex_fmtAltHex ha, hex_fmtAltHex ho, (place_text (hc c (by simp [hci]))).1]
  · unfold inlinedLine
    rw [hrest]
    have : fmtAddr input = 48 :: (fmtAddr input).tail := by simp [fmtAddr, ascii]
    rw [this, List.cons_append, show List.replicate 18 (32 : UInt8) = 32 :: List.replicate 17 32 from rfl,
      afterStart_none _ _ (by decide)]
    rfl
  · rw [hrest]
    have h1 : (10 : UInt8) ∉ fmtAddr input := not_numChar (by decide) (numChar_addr hi)
    have h2 : (10 : UInt8) ∉ fmtAltHex s.addr := not_numChar (by decide) (numChar_altHex ha)
    have h3 : (10 : UInt8) ∉ fmtAltHex s.offset := not_numChar (by decide) (numChar_altHex ho)
    have h4 : (10 : UInt8) ∉ ascii " @ " := by decide
    simp only [List.mem_append, not_or]
    exact ⟨h1, by decide, hn.1, h4, h2, by decide, h3, hnl⟩

theorem addressLine_unknown {input : Nat} (hi : input < 2 ^ 64) :
    addressLine (fmtAddr input ++ ascii ": <no-symbol>") = some (input, none) ∧
      inlinedLine (fmtAddr input ++ ascii ": <no-symbol>") = none ∧
      (10 : UInt8) ∉ fmtAddr input ++ ascii ": <no-symbol>" := by
  have hcolon : ascii ": " = 58 :: [32] := by decide
  have hrest : ascii ": <no-symbol>" = 58 :: [32] ++ ascii "<no-symbol>" := by decide
  refine ⟨?_, ?_, ?_⟩
  · unfold addressLine
    rw [hcolon, hrest, cut_head _ (not_numChar (by decide) (numChar_addr hi))]
    simp [hex_fmtAddr hi]
  · unfold inlinedLine
    have : fmtAddr input = 48 :: (fmtAddr input).tail := by simp [fmtAddr, ascii]
    rw [this, List.cons_append, show List.replicate 18 (32 : UInt8) = 32 :: List.replicate 17 32 from rfl,
      afterStart_none _ _ (by decide)]
    rfl
  · have h1 : (10 : UInt8) ∉ fmtAddr input := not_numChar (by decide) (numChar_addr hi)
    simp only [List.mem_append, not_or]
    exact ⟨h1, by decide⟩

/-- The lines printed for an address. -/
def answerLines (display : Bytes → Bytes) (input : Nat) : Symbolized → List Bytes
  | .unknown _ => [fmtAddr input ++ ascii ": <no-symbol>"]
  | .sym s => symText display input s :: s.inlined.map (inlinedText display)

/-- The lines printed for addresses. -/
def allLines (display : Bytes → Bytes) : List Nat → List Symbolized → List Bytes
  | addr :: addrs, s :: syms => answerLines display addr s ++ allLines display addrs syms
  | _, _ => []

theorem printInlined_lines (display : Bytes → Bytes) (l : List InlinedFn) :
    printInlined display l = ((l.map (inlinedText display)).map println).flatten := by
  induction l with
  | nil => rfl
  | cons f l ih =>
    rw [printInlined, ih]
    rfl

theorem printSymbolized_lines (display : Bytes → Bytes) (input : Nat) (s : Symbolized) :
    printSymbolized display input s = ((answerLines display input s).map println).flatten := by
  cases s with
  | unknown r => simp [printSymbolized, answerLines]
  | sym s =>
    simp only [printSymbolized, answerLines, List.map_cons, List.flatten_cons, printInlined_lines]
    rfl

theorem printAll_lines (display : Bytes → Bytes) (addrs : List Nat) (syms : List Symbolized) :
    printAll display addrs syms = ((allLines display addrs syms).map println).flatten := by
  induction addrs generalizing syms with
  | nil => rfl
  | cons a addrs ih =>
    cases syms with
    | nil => rfl
    | cons s syms => simp [printAll, allLines, printSymbolized_lines, ih]

theorem gather_inlined {display : Bytes → Bytes} (l : List InlinedFn)
    (h : ∀ f ∈ l, PlainName f.name ∧ ∀ c ∈ f.codeInfo, PlainPlace display c) {ls : List Bytes}
    {i : List (Bytes × Option Place)} {r : List (Nat × Option Frame)} (hg : gather ls = some (i, r)) :
    gather (l.map (inlinedText display) ++ ls) =
      some ((l.map fun f => (f.name, f.codeInfo.map (placeOf display))) ++ i, r) := by
  induction l with
  | nil => exact hg
  | cons f l ih =>
    obtain ⟨hn, hc⟩ := h f (by simp)
    rw [List.map_cons, List.cons_append, gather, ih (fun g hg => h g (List.mem_cons_of_mem _ hg))]
    simp only [Option.bind_some, (inlinedLine_text hn hc).1]
    rfl

theorem gather_answer {display : Bytes → Bytes} {input : Nat} (hi : input < 2 ^ 64) {s : Symbolized}
    (hs : PlainAnswer display s) {ls : List Bytes} {r : List (Nat × Option Frame)} (hg : gather ls = some ([], r)) :
    gather (answerLines display input s ++ ls) = some ([], (input, frameOf display s) :: r) := by
  cases s with
  | unknown reason =>
    obtain ⟨h1, h2, -⟩ := addressLine_unknown hi
    simp only [answerLines, List.cons_append, List.nil_append, gather, hg, Option.bind_some, h1, h2]
    rfl
  | sym s =>
    obtain ⟨h1, h2, -⟩ := addressLine_sym hi hs
    obtain ⟨-, -, -, -, h5⟩ := hs
    have := gather_inlined s.inlined h5 hg
    simp only [answerLines, List.cons_append, gather, this, Option.bind_some, h1, h2]
    simp [frameOf]

theorem gather_all {display : Bytes → Bytes} (addrs : List Nat) (syms : List Symbolized)
    (ha : ∀ a ∈ addrs, a < 2 ^ 64) (hs : ∀ s ∈ syms, PlainAnswer display s) :
    gather (allLines display addrs syms) = some ([], addrs.zip (syms.map (frameOf display))) := by
  induction addrs generalizing syms with
  | nil => simp [allLines, gather]
  | cons a addrs ih =>
    cases syms with
    | nil => simp [allLines, gather]
    | cons s syms =>
      simp only [allLines]
      exact gather_answer (ha a (by simp)) (hs s (by simp))
        (ih syms (fun a h => ha a (List.mem_cons_of_mem _ h)) (fun s h => hs s (List.mem_cons_of_mem _ h)))

theorem allLines_newline {display : Bytes → Bytes} (addrs : List Nat) (syms : List Symbolized)
    (ha : ∀ a ∈ addrs, a < 2 ^ 64) (hs : ∀ s ∈ syms, PlainAnswer display s) :
    ∀ l ∈ allLines display addrs syms, (10 : UInt8) ∉ l := by
  induction addrs generalizing syms with
  | nil => simp [allLines]
  | cons a addrs ih =>
    cases syms with
    | nil => simp [allLines]
    | cons s syms =>
      simp only [allLines]
      intro l hl
      rcases List.mem_append.mp hl with hl | hl
      · have h1 := hs s (by simp)
        have h2 := ha a (by simp)
        cases s with
        | unknown r =>
          simp only [answerLines, List.mem_singleton] at hl
          rw [hl]; exact (addressLine_unknown h2).2.2
        | sym s =>
          simp only [answerLines, List.mem_cons, List.mem_map] at hl
          rcases hl with rfl | ⟨f, hf, rfl⟩
          · exact (addressLine_sym h2 h1).2.2
          · obtain ⟨-, -, -, -, h5⟩ := h1
            exact (inlinedLine_text (h5 f hf).1 (h5 f hf).2).2
      · exact ih syms (fun a h => ha a (List.mem_cons_of_mem _ h)) (fun s h => hs s (List.mem_cons_of_mem _ h)) l hl

theorem readFrames_printAll {display : Bytes → Bytes} (addrs : List Nat) (syms : List Symbolized)
    (ha : ∀ a ∈ addrs, a < 2 ^ 64) (hs : ∀ s ∈ syms, PlainAnswer display s) :
    readFrames (printAll display addrs syms) = some (addrs.zip (syms.map (frameOf display))) := by
  unfold readFrames
  rw [printAll_lines, textLines_lines _ (allLines_newline addrs syms ha hs)]
  simp only [Option.bind_some, gather_all addrs syms ha hs]
  rfl

end Blazesym.Cli
