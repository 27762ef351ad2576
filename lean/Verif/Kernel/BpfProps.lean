import Verif.Kernel.BpfSpec
import Verif.PerfMap.Props
import Verif.Util.LayoutLemmas
import Mathlib.Data.Nat.Bitwise
import Mathlib.Data.List.Forall2

/-! # C50, C57, C58: BPF programs -/

set_option autoImplicit false

namespace Blazesym.Kernel
open Blazesym.Util Blazesym.Spec Blazesym.Spec.Kernel Blazesym.Symbolize
open Blazesym.PerfMap (numText_ascii)

/-! ### Tags -/

theorem chunk_parse {chunk : Bytes} {b : UInt8} (h : Chunk chunk b) :
    fromStrRadix 256 16 chunk = some b.toNat :=
  (fromStrRadix_iff (by omega) (by omega) (by omega) chunk b.toNat).mpr ⟨h.2, b.toNat_lt⟩

theorem chunk_of_parse {chunk : Bytes} {v : Nat} (hl : chunk.length = 2)
    (h : fromStrRadix 256 16 chunk = some v) : Chunk chunk (UInt8.ofNat v) ∧ v < 256 := by
  obtain ⟨h1, h2⟩ := (fromStrRadix_iff (by omega) (by omega) (by omega) chunk v).mp h
  refine ⟨⟨hl, ?_⟩, h2⟩
  rw [UInt8.toNat_ofNat_of_lt' (by simpa using h2)]
  exact h1

theorem chunk_ascii {chunk : Bytes} {b : UInt8} (h : Chunk chunk b) : ∀ c ∈ chunk, ¬ Continuation c := by
  intro c hc hcc
  have := numText_ascii (by omega) h.2 c hc
  unfold Continuation at hcc
  omega

theorem boundary_iff (pre r : Bytes) :
    isCharBoundary (pre ++ r) pre.length = true ↔ pre = [] ∨ ¬ StartsInside r := by
  unfold isCharBoundary StartsInside Continuation
  cases r with
  | nil => simp
  | cons b t =>
    simp only [List.getElem?_append_right (Nat.le_refl _), Nat.sub_self, List.getElem?_cons_zero,
      List.head?_cons, Option.some.injEq, List.length_eq_zero_iff, Bool.or_eq_true, decide_eq_true_eq,
      Bool.not_eq_true', Bool.and_eq_false_iff, decide_eq_false_iff_not]
    constructor
    · rintro (h | h)
      · exact Or.inl h
      · right
        rintro ⟨c, rfl, h1, h2⟩
        omega
    · rintro (h | h)
      · exact Or.inl h
      · right
        by_contra hc
        exact h ⟨b, rfl, by omega, by omega⟩

theorem tagText_cons {c d : UInt8} {r tag : Bytes} :
    TagText (c :: d :: r) tag ↔ ∃ b rest, tag = b :: rest ∧ Chunk [c, d] b ∧ TagText r rest := by
  constructor
  · rintro ⟨chunks, h1, h2⟩
    cases h2 with
    | nil => simp at h1
    | @cons ch b chs rest hc hr =>
      obtain ⟨x, y, hxy⟩ := List.length_eq_two.mp hc.1
      subst hxy
      simp only [List.flatten_cons, List.cons_append, List.nil_append, List.cons.injEq] at h1
      obtain ⟨rfl, rfl, h1⟩ := h1
      exact ⟨b, rest, rfl, hc, chs, h1, hr⟩
  · rintro ⟨b, rest, rfl, hc, chs, h1, h2⟩
    exact ⟨[c, d] :: chs, by simp [h1], .cons hc h2⟩

theorem tagText_nil {tag : Bytes} : TagText [] tag ↔ tag = [] := by
  constructor
  · rintro ⟨chunks, h1, h2⟩
    cases h2 with
    | nil => rfl
    | cons hc hr =>
      have := congrArg List.length h1
      have h2 := hc.1
      simp [h2] at this
      omega
  · rintro rfl; exact ⟨[], rfl, .nil⟩

theorem tagText_starts {r tag : Bytes} (h : TagText r tag) : ¬ StartsInside r := by
  rintro ⟨b, hb, hc⟩
  obtain ⟨chunks, h1, h2⟩ := h
  cases h2 with
  | nil => subst h1; simp at hb
  | @cons ch _ _ _ hch _ =>
    obtain ⟨x, y, hxy⟩ := List.length_eq_two.mp hch.1
    subst hxy h1
    simp at hb
    subst hb
    exact chunk_ascii hch x (by simp) hc

theorem snoc2 (pre : Bytes) (c d : UInt8) (r : Bytes) :
    pre ++ c :: d :: r = (pre ++ [c, d]) ++ r ∧ pre.length + 2 = (pre ++ [c, d]).length := by simp

open scoped Classical in
/-- What one round of the loop sees. -/
theorem tagLoop_step (fuel : Nat) (pre : Bytes) (c d : UInt8) (r acc : Bytes) :
    tagLoop (pre ++ c :: d :: r) (fuel + 1) pre.length acc =
      if (pre = [] ∨ ¬ StartsInside (c :: d :: r)) ∧ ¬ StartsInside r then
        match fromStrRadix 256 16 [c, d] with
        | none => .ok none
        | some v => tagLoop (pre ++ [c, d] ++ r) fuel (pre ++ [c, d]).length (acc ++ [UInt8.ofNat v])
      else .error .panic := by
  rw [tagLoop]
  have h1 := boundary_iff pre (c :: d :: r)
  have h2 := boundary_iff (pre ++ [c, d]) r
  have h3 : isCharBoundary (pre ++ c :: d :: r) (pre.length + 2) = true ↔ ¬ StartsInside r := by
    rw [(snoc2 pre c d r).1, (snoc2 pre c d r).2, h2]
    simp
  have h4 : ((pre ++ c :: d :: r).drop pre.length).take 2 = [c, d] := by simp
  rw [h4, (snoc2 pre c d r).2]
  by_cases hA : pre = [] ∨ ¬ StartsInside (c :: d :: r)
  · by_cases hB : ¬ StartsInside r
    · rw [if_pos (by rw [(snoc2 pre c d r).2] at h3; simp only [h1.mpr hA, h3.mpr hB, Bool.and_self]), if_pos ⟨hA, hB⟩]
      cases fromStrRadix 256 16 [c, d] <;> simp
    · rw [if_neg (by rw [(snoc2 pre c d r).2] at h3; rw [Bool.and_eq_true, h3]; tauto), if_neg (by tauto)]
  · rw [if_neg (by rw [Bool.and_eq_true, h1]; tauto), if_neg (by tauto)]

theorem split_two {r : Bytes} {n : Nat} (h : r.length = 2 * (n + 1)) :
    ∃ c d r', r = c :: d :: r' ∧ r'.length = 2 * n := by
  match r, h with
  | [], h => simp at h
  | [_], h => simp at h; omega
  | c :: d :: r', h => exact ⟨c, d, r', rfl, by simp at h; omega⟩

theorem tagLoop_some (fuel : Nat) (pre r acc out : Bytes) (hl : r.length = 2 * fuel) :
    tagLoop (pre ++ r) fuel pre.length acc = .ok (some out) ↔ ∃ tag, out = acc ++ tag ∧ TagText r tag := by
  induction fuel generalizing pre r acc with
  | zero =>
    have : r = [] := by simpa using hl
    subst this
    simp only [tagLoop, Except.ok.injEq, Option.some.injEq]
    constructor
    · rintro rfl; exact ⟨[], by simp, tagText_nil.mpr rfl⟩
    · rintro ⟨tag, rfl, h⟩; rw [tagText_nil.mp h]; simp
  | succ n ih =>
    obtain ⟨c, d, r', rfl, hl'⟩ := split_two hl
    rw [tagLoop_step]
    constructor
    · intro h
      split at h
      · split at h
        · simp at h
        · rename_i v hv
          obtain ⟨tag, h1, h2⟩ := (ih _ _ _ hl').mp h
          exact ⟨UInt8.ofNat v :: tag, by simp [h1],
            tagText_cons.mpr ⟨_, _, rfl, (chunk_of_parse rfl hv).1, h2⟩⟩
      · simp at h
    · rintro ⟨tag, rfl, h⟩
      have hs := tagText_starts h
      obtain ⟨b, rest, rfl, hc, ht⟩ := tagText_cons.mp h
      rw [if_pos ⟨Or.inr hs, tagText_starts ht⟩, chunk_parse hc]
      refine (ih _ _ _ hl').mpr ⟨rest, ?_, ht⟩
      simp

theorem tagText_length {s tag : Bytes} (h : TagText s tag) : s.length = 2 * tag.length := by
  obtain ⟨chunks, rfl, h⟩ := h
  induction h with
  | nil => rfl
  | @cons a b l l' hc _ ih => rw [List.flatten_cons, List.length_append, hc.1, ih, List.length_cons]; omega

/-- **C50** (acceptance): a tag is read exactly from eight hexadecimal numbers of two characters
each, which are its bytes. -/
theorem C50_accepts (s tag : Bytes) : tagFromStr s = .ok (some tag) ↔ tag.length = 8 ∧ TagText s tag := by
  unfold tagFromStr
  by_cases hl : s.length = 2 * 8
  · rw [if_neg (by simpa using hl)]
    have := tagLoop_some 8 [] s [] tag hl
    simp only [List.nil_append, List.length_nil] at this
    rw [this]
    constructor
    · rintro ⟨t, rfl, h⟩; exact ⟨by have := tagText_length h; omega, h⟩
    · rintro ⟨_, h⟩; exact ⟨tag, rfl, h⟩
  · rw [if_pos hl]
    constructor
    · intro h; simp at h
    · rintro ⟨h1, h2⟩; exact absurd (tagText_length h2) (by omega)

theorem fmtByte_chunk (b : UInt8) :
    Chunk (List.replicate (2 - (fmtHex b.toNat).length) 48 ++ fmtHex b.toNat) b ∧
    (List.replicate (2 - (fmtHex b.toNat).length) 48 ++ fmtHex b.toNat) =
      [digitChar (b.toNat / 16), digitChar (b.toNat % 16)] := by
  have hb := b.toNat_lt
  have e : fmtHex b.toNat = if b.toNat < 16 then [digitChar b.toNat] else
      [digitChar (b.toNat / 16), digitChar (b.toNat % 16)] := by
    unfold fmtHex
    rw [fmtLoop]
    split
    · rfl
    · rw [fmtLoop, if_pos (by omega)]; rfl
  have e2 : (List.replicate (2 - (fmtHex b.toNat).length) 48 ++ fmtHex b.toNat) =
      [digitChar (b.toNat / 16), digitChar (b.toNat % 16)] := by
    rw [e]
    by_cases h : b.toNat < 16
    · rw [if_pos h, Nat.div_eq_of_lt h, Nat.mod_eq_of_lt h]; rfl
    · rw [if_neg h]; rfl
  refine ⟨?_, e2⟩
  rw [e2]
  have d1 := digitVal_digitChar (d := b.toNat / 16) (by omega)
  have d2 := digitVal_digitChar (d := b.toNat % 16) (by omega)
  refine ⟨rfl, _, Or.inl rfl, by simp, ?_, ?_⟩
  · intro c hc
    simp only [List.mem_cons, List.not_mem_nil, or_false] at hc
    unfold IsDigit
    rcases hc with rfl | rfl
    · rw [d1]; omega
    · rw [d2]; omega
  · simp [numVal, d1, d2]
    omega

/-- **C50** (text form): the text of a tag is two lower case hexadecimal digits per byte, the high
half first. -/
theorem C50_display (tag : Bytes) :
    tagDisplay tag = tag.flatMap (fun b => [digitChar (b.toNat / 16), digitChar (b.toNat % 16)]) := by
  unfold tagDisplay
  congr 1
  funext b
  exact (fmtByte_chunk b).2

/-- **C50** (round trip): the text form of any tag is read as that tag. -/
theorem C50_round_trip (tag : Bytes) (h : tag.length = 8) : tagFromStr (tagDisplay tag) = .ok (some tag) := by
  rw [C50_accepts]
  refine ⟨h, tag.map (fun b => List.replicate (2 - (fmtHex b.toNat).length) 48 ++ fmtHex b.toNat), ?_, ?_⟩
  · rw [tagDisplay, List.flatMap_def]
  · rw [List.forall₂_map_left_iff]
    exact List.forall₂_same.mpr (fun b _ => (fmtByte_chunk b).1)

/-- **C50** (only hexadecimal characters, the part that holds): what is accepted has 16
characters, each of them a hexadecimal digit or a `+`.  The claim without `+` is false, see
`C50_sign_accepted`. -/
theorem C50_characters_partial (s tag : Bytes) (h : tagFromStr s = .ok (some tag)) :
    s.length = 16 ∧ ∀ c ∈ s, IsDigit 16 c ∨ c = 43 := by
  obtain ⟨h1, h2⟩ := (C50_accepts s tag).mp h
  refine ⟨by have := tagText_length h2; omega, ?_⟩
  obtain ⟨chunks, rfl, h2⟩ := h2
  clear h h1
  induction h2 with
  | nil => simp
  | @cons ch b l l' hc _ ih =>
    intro c hcm
    rw [List.flatten_cons, List.mem_append] at hcm
    rcases hcm with hcm | hcm
    · obtain ⟨_, ds, hs | hs, _, hd, _⟩ := hc
      · subst hs; exact Or.inl (hd c hcm)
      · subst hs
        rcases List.mem_cons.mp hcm with rfl | hcm
        · exact Or.inr rfl
        · exact Or.inl (hd c hcm)
    · exact ih c hcm

/-- **C50** (hexadecimal text is accepted): sixteen hexadecimal digits, of either case, are read. -/
theorem C50_hex_accepted (s : Bytes) (hl : s.length = 16) (h : ∀ c ∈ s, IsDigit 16 c) :
    ∃ tag, tagFromStr s = .ok (some tag) := by
  have key : ∀ (n : Nat) (s : Bytes), s.length = 2 * n → (∀ c ∈ s, IsDigit 16 c) →
      ∃ tag, tag.length = n ∧ TagText s tag := by
    intro n
    induction n with
    | zero =>
      intro s hs _
      have : s = [] := by simpa using hs
      subst this
      exact ⟨[], rfl, tagText_nil.mpr rfl⟩
    | succ n ih =>
      intro s hs hd
      obtain ⟨c, d, r, rfl, hr⟩ := split_two hs
      obtain ⟨tag, h1, h2⟩ := ih r hr (fun x hx => hd x (by simp [hx]))
      have hc := hd c (by simp)
      have hdd := hd d (by simp)
      unfold IsDigit at hc hdd
      refine ⟨UInt8.ofNat (digitVal c * 16 + digitVal d) :: tag, by simp [h1],
        tagText_cons.mpr ⟨_, _, rfl, ⟨rfl, [c, d], Or.inl rfl, by simp, ?_, ?_⟩, h2⟩⟩
      · intro x hx
        exact hd x (by simp at hx ⊢; tauto)
      · rw [UInt8.toNat_ofNat_of_lt' (by show _ < 256; omega)]
        simp [numVal]
  obtain ⟨tag, h1, h2⟩ := key 8 s (by omega) h
  exact ⟨tag, (C50_accepts s tag).mpr ⟨h1, h2⟩⟩

/-- **C50** (a sign is accepted): `+` followed by a digit stands for a byte of a tag, although it
is not hexadecimal; the claim that only 16 hexadecimal characters are accepted is false. -/
theorem C50_sign_accepted (d : UInt8) (hd : IsDigit 16 d) (r rest : Bytes) (hl : rest.length = 7)
    (hr : TagText r rest) :
    tagFromStr (43 :: d :: r) = .ok (some (UInt8.ofNat (digitVal d) :: rest)) := by
  rw [C50_accepts]
  unfold IsDigit at hd
  refine ⟨by simp [hl], tagText_cons.mpr ⟨_, _, rfl, ⟨rfl, [d], Or.inr rfl, by simp, by simpa [IsDigit] using hd, ?_⟩, hr⟩⟩
  rw [UInt8.toNat_ofNat_of_lt' (by show _ < 256; omega)]
  simp [numVal]

theorem tagLoop_panic (fuel : Nat) (pre r acc : Bytes) (hl : r.length = 2 * fuel) (e : Err) :
    tagLoop (pre ++ r) fuel pre.length acc = .error e ↔
      e = .panic ∧ ∃ done tag rest, r = done ++ rest ∧ TagText done tag ∧
        ((pre ++ done ≠ [] ∧ rest ≠ [] ∧ StartsInside rest) ∨ StartsInside (rest.drop 2)) := by
  induction fuel generalizing pre r acc with
  | zero =>
    have : r = [] := by simpa using hl
    subst this
    simp only [tagLoop]
    constructor
    · intro h; simp at h
    · rintro ⟨_, done, tag, rest, h, _, h3⟩
      obtain ⟨rfl, rfl⟩ := List.append_eq_nil_iff.mp h.symm
      simp [StartsInside] at h3
  | succ n ih =>
    obtain ⟨c, d, r', rfl, hl'⟩ := split_two hl
    rw [tagLoop_step]
    by_cases hA : (pre = [] ∨ ¬ StartsInside (c :: d :: r')) ∧ ¬ StartsInside r'
    · rw [if_pos hA]
      have hpanic : ∀ done tag rest, c :: d :: r' = done ++ rest → TagText done tag →
          ((pre ++ done ≠ [] ∧ rest ≠ [] ∧ StartsInside rest) ∨ StartsInside (rest.drop 2)) →
          ∃ done', done = c :: d :: done' := by
        intro done tag rest h1 h2 h3
        have := tagText_length h2
        match done, this with
        | [], _ =>
          simp only [List.nil_append] at h1
          subst h1
          exfalso
          simp only [List.append_nil, List.drop_succ_cons, List.drop_zero] at h3
          tauto
        | [_], h => simp at h; omega
        | x :: y :: done', _ =>
          simp at h1
          exact ⟨done', by rw [h1.1, h1.2.1]⟩
      cases hv : fromStrRadix 256 16 [c, d] with
      | none =>
        constructor
        · intro h; simp at h
        · rintro ⟨_, done, tag, rest, h1, h2, h3⟩
          obtain ⟨done', rfl⟩ := hpanic done tag rest h1 h2 h3
          obtain ⟨b, _, _, hc, _⟩ := tagText_cons.mp h2
          rw [chunk_parse hc] at hv
          simp at hv
      | some v =>
        simp only []
        rw [ih _ _ _ hl']
        refine and_congr_right (fun _ => ?_)
        constructor
        · rintro ⟨done, tag, rest, h1, h2, h3⟩
          refine ⟨c :: d :: done, UInt8.ofNat v :: tag, rest, by simp [h1],
            tagText_cons.mpr ⟨_, _, rfl, (chunk_of_parse rfl hv).1, h2⟩, ?_⟩
          refine h3.imp (fun h => ⟨by simp, h.2⟩) id
        · rintro ⟨done, tag, rest, h1, h2, h3⟩
          obtain ⟨done', rfl⟩ := hpanic done tag rest h1 h2 h3
          obtain ⟨b, tl, rfl, hc, ht⟩ := tagText_cons.mp h2
          refine ⟨done', tl, rest, by simpa using h1, ht, h3.imp (fun h => ⟨by simp, h.2⟩) id⟩
    · rw [if_neg hA]
      constructor
      · intro h
        refine ⟨by simpa using h.symm, [], [], c :: d :: r', by simp, tagText_nil.mpr rfl, ?_⟩
        simp only [List.append_nil, List.drop_succ_cons, List.drop_zero]
        have : (c :: d :: r') ≠ [] := by simp
        tauto
      · rintro ⟨rfl, _⟩; rfl

/-- **C50** (panic): reading a tag panics exactly on texts of 16 bytes where, after numbers of two
characters each, a character does not end where the next such number would. -/
theorem C50_panics_iff (s : Bytes) (e : Err) :
    tagFromStr s = .error e ↔ e = .panic ∧ Straddles s := by
  unfold tagFromStr Straddles
  by_cases hl : s.length = 2 * 8
  · rw [if_neg (by simpa using hl)]
    have := tagLoop_panic 8 [] s [] hl e
    simp only [List.nil_append, List.length_nil] at this
    rw [this]
    constructor
    · rintro ⟨h1, done, tag, rest, h2, h3, h4⟩
      exact ⟨h1, by omega, done, tag, rest, h2, h3, h4.imp (fun h => ⟨h.1, h.2.2⟩) id⟩
    · rintro ⟨h1, _, done, tag, rest, h2, h3, h4⟩
      refine ⟨h1, done, tag, rest, h2, h3, h4.imp (fun h => ⟨h.1, ?_, h.2⟩) id⟩
      rintro rfl
      simp [StartsInside] at h
  · rw [if_pos hl]
    constructor
    · intro h; simp at h
    · rintro ⟨_, h, _⟩; omega

/-- **C50** (no panic on ASCII): a text without multibyte characters is read or refused. -/
theorem C50_no_panic_partial (s : Bytes) (h : ∀ b ∈ s, b.toNat < 128) : ∃ r, tagFromStr s = .ok r := by
  cases hr : tagFromStr s with
  | ok r => exact ⟨r, rfl⟩
  | error e =>
    obtain ⟨_, _, done, _, rest, h1, _, h2⟩ := (C50_panics_iff s e).mp hr
    exfalso
    have key : ∀ b ∈ rest, ¬ Continuation b := by
      intro b hb hc
      have := h b (by rw [h1]; simp [hb])
      unfold Continuation at hc; omega
    rcases h2 with ⟨_, b, hb, hc⟩ | ⟨b, hb, hc⟩
    · exact key b (List.mem_of_mem_head? hb) hc
    · exact key b (List.mem_of_mem_drop (List.mem_of_mem_head? hb)) hc

theorem progName_iff (s t : Bytes) : ProgName s t ↔ ∃ noPrefix, stripPrefix s (ascii "bpf_prog_") = some noPrefix ∧
    tagPart noPrefix = t := by
  unfold ProgName tagPart
  have h95 : ascii "_" = [95] := by decide
  constructor
  · rintro ⟨h, ht⟩
    rcases h with rfl | ⟨name, rfl⟩
    · refine ⟨t, stripPrefix_some_iff.mpr rfl, ?_⟩
      have : position (fun b => b == 95) t = none :=
        position_none.mpr (fun b hb => by simpa using ht b hb)
      rw [this]
    · refine ⟨t ++ ascii "_" ++ name, stripPrefix_some_iff.mpr (by simp), ?_⟩
      have : position (fun b => b == 95) (t ++ ascii "_" ++ name) = some t.length :=
        position_eq_some_iff.mpr ⟨t, 95, name, by simp [h95], rfl, by decide, fun b hb => by simpa using ht b hb⟩
      rw [this]
      simp
  · rintro ⟨np, h1, rfl⟩
    rw [stripPrefix_some_iff] at h1
    subst h1
    cases hp : position (fun b => b == 95) np with
    | none =>
      exact ⟨Or.inl rfl, fun b hb => by simpa using position_none.mp hp b hb⟩
    | some i =>
      obtain ⟨a, w, b, rfl, rfl, hw, ha⟩ := position_eq_some_iff.mp hp
      have hw' : w = 95 := by simpa using hw
      subst hw'
      refine ⟨Or.inr ⟨b, by simp [h95]⟩, ?_⟩
      simp only [List.take_left]
      exact fun b hb => by simpa using ha b hb

/-- **C50** (kernel symbols): a kernel symbol is taken for a BPF program exactly if its name is
`bpf_prog_<tag>`, perhaps followed by `_` and more; the whole text is kept as the name. -/
theorem C50_parse (s : Bytes) (addr : Nat) (prog : BpfProg) :
    BpfProg.parse s addr = .ok (some prog) ↔
      prog.addr = addr ∧ prog.name = s ∧ prog.tag.length = 8 ∧
        ∃ t, ProgName s t ∧ TagText t prog.tag := by
  unfold BpfProg.parse
  constructor
  · intro h
    cases hs : stripPrefix s (ascii "bpf_prog_") with
    | none => rw [hs] at h; simp at h
    | some np =>
      rw [hs] at h
      simp only at h
      generalize ht : tagPart np = t at h
      have hp : ProgName s t := (progName_iff s t).mpr ⟨np, hs, ht⟩
      cases hf : tagFromStr t with
      | error e => rw [hf] at h; simp at h
      | ok o =>
        cases o with
        | none => rw [hf] at h; simp at h
        | some tag =>
          rw [hf] at h
          have h' : ({ addr, name := s, tag } : BpfProg) = prog := by simpa using h
          subst h'
          obtain ⟨h1, h2⟩ := (C50_accepts t tag).mp hf
          exact ⟨rfl, rfl, h1, t, hp, h2⟩
  · rintro ⟨h1, h2, h3, t, h4, h5⟩
    obtain ⟨np, hs, ht⟩ := (progName_iff s t).mp h4
    rw [hs]
    simp only [ht, (C50_accepts t prog.tag).mpr ⟨h3, h5⟩]
    subst h1 h2
    rfl

/-- **C50** (kernel symbols, errors): classifying a name fails only by the panic of reading a tag. -/
theorem C50_parse_panics (s : Bytes) (addr : Nat) (e : Err) :
    BpfProg.parse s addr = .error e ↔ e = .panic ∧ ∃ t, ProgName s t ∧ Straddles t := by
  have : (e = .panic ∧ ∃ t, ProgName s t ∧ Straddles t) ↔ ∃ t, ProgName s t ∧ tagFromStr t = .error e := by
    simp only [C50_panics_iff]
    tauto
  rw [this]
  unfold BpfProg.parse
  constructor
  · intro h
    cases hs : stripPrefix s (ascii "bpf_prog_") with
    | none => rw [hs] at h; simp at h
    | some np =>
      rw [hs] at h
      simp only at h
      generalize ht : tagPart np = t at h
      refine ⟨t, (progName_iff s t).mpr ⟨np, hs, ht⟩, ?_⟩
      cases hf : tagFromStr t with
      | error e' => rw [hf] at h; simpa using h
      | ok o => cases o <;> (rw [hf] at h; simp at h)
  · rintro ⟨t, h4, h5⟩
    obtain ⟨np, hs, ht⟩ := (progName_iff s t).mp h4
    rw [hs]
    simp only [ht, h5]

/-! Concrete cases for C50. -/

example : tagDisplay [0x7c, 0xc4, 0x7f, 0x24, 0x81, 0x4a, 0xbd, 0x09] = ascii "7cc47f24814abd09" := by decide +kernel
example : tagFromStr (ascii "7cc47f24814abd09") = .ok (some [0x7c, 0xc4, 0x7f, 0x24, 0x81, 0x4a, 0xbd, 0x09]) := by
  decide +kernel
example : tagFromStr (ascii "7cc47f24814abd0") = .ok none := by decide +kernel
example : tagFromStr (ascii "7cc47f24814abdxx") = .ok none := by decide +kernel
-- A sign is accepted, and a character of several bytes may make reading panic.
example : tagFromStr (ascii "+cc47f24814abd09") = .ok (some [0x0c, 0xc4, 0x7f, 0x24, 0x81, 0x4a, 0xbd, 0x09]) := by
  decide +kernel
example : tagFromStr ("f€0123456789ab".toUTF8.toList) = .error .panic := by decide +kernel
example : BpfProg.parse (ascii "bpf_prog_7cc47f24814abd09_getpid") 0xc0de =
    .ok (some ⟨0xc0de, ascii "bpf_prog_7cc47f24814abd09_getpid", [0x7c, 0xc4, 0x7f, 0x24, 0x81, 0x4a, 0xbd, 0x09]⟩) := by
  decide +kernel
example : BpfProg.parse (ascii "bpf_prog_array_alloc") 0xc0de = .ok none := by decide +kernel

/-! ### Program information -/

theorem get_cons (t tag : Bytes) (info : ProgInfo) (c : InfoCache) :
    InfoCache.get ((t, info) :: c) tag = if t = tag then some info else c.get tag := by
  unfold InfoCache.get
  rw [List.find?_cons]
  by_cases h : t = tag
  · simp [h]
  · have : (t == tag) = false := by simpa using h
    simp [this, h]

theorem insertTags_spec (tag : Bytes) (info : ProgInfo) (ts : List Bytes) (found : Option ProgInfo) (c : InfoCache) :
    (insertTags tag info ts found c).1 = (if found.isNone ∧ tag ∈ ts then some info else found) ∧
    ∀ t, (insertTags tag info ts found c).2.get t = if t ∈ ts then some info else c.get t := by
  induction ts generalizing found c with
  | nil => simp [insertTags]
  | cons x xs ih =>
    obtain ⟨h1, h2⟩ := ih (if found.isNone && tag == x then some info else found) ((x, info) :: c)
    rw [insertTags]
    refine ⟨?_, ?_⟩
    · rw [h1]
      cases found with
      | none =>
        by_cases hx : tag = x
        · simp [hx]
        · have : (tag == x) = false := by simpa using hx
          simp [this, hx]
      | some f => simp
    · intro t
      rw [h2, get_cons]
      by_cases hm : t ∈ xs
      · simp [hm]
      · by_cases hx : t = x
        · simp [hx]
        · have : x ≠ t := fun h => hx h.symm
          simp [hm, hx, this]

theorem hasTag_iff (info : ProgInfo) (tag : Bytes) : tag ∈ info.tag :: info.progTags ↔ HasTag info tag := by
  simp [HasTag]

theorem firstWith_cons (i : ProgInfo) (l : List ProgInfo) (tag : Bytes) (info : ProgInfo) :
    FirstWith (i :: l) tag info ↔ (HasTag i tag ∧ info = i) ∨ (¬ HasTag i tag ∧ FirstWith l tag info) := by
  constructor
  · rintro ⟨before, after, h1, h2, h3⟩
    cases before with
    | nil =>
      simp at h1
      exact Or.inl ⟨by rw [h1.1]; exact h2, h1.1.symm⟩
    | cons b bs =>
      simp at h1
      exact Or.inr ⟨by rw [h1.1]; exact h3 b (by simp), bs, after, h1.2, h2, fun x hx => h3 x (by simp [hx])⟩
  · rintro (⟨h1, rfl⟩ | ⟨h1, before, after, rfl, h2, h3⟩)
    · exact ⟨[], l, rfl, h1, by simp⟩
    · refine ⟨i :: before, after, rfl, h2, ?_⟩
      intro x hx
      rcases List.mem_cons.mp hx with rfl | hx
      · exact h1
      · exact h3 x hx

theorem lastWith_cons (i : ProgInfo) (l : List ProgInfo) (tag : Bytes) (info : ProgInfo) :
    LastWith (i :: l) tag info ↔ LastWith l tag info ∨ (HasTag i tag ∧ info = i ∧ ∀ x ∈ l, ¬ HasTag x tag) := by
  constructor
  · rintro ⟨before, after, h1, h2, h3⟩
    cases before with
    | nil =>
      simp at h1
      obtain ⟨rfl, rfl⟩ := h1
      exact Or.inr ⟨h2, rfl, h3⟩
    | cons b bs =>
      simp at h1
      exact Or.inl ⟨bs, after, h1.2, h2, h3⟩
  · rintro (⟨before, after, rfl, h2, h3⟩ | ⟨h1, rfl, h3⟩)
    · exact ⟨i :: before, after, rfl, h2, h3⟩
    · exact ⟨[], l, rfl, h1, h3⟩

theorem lastWith_none (l : List ProgInfo) (tag : Bytes) (h : ∀ x ∈ l, ¬ HasTag x tag) (info : ProgInfo) :
    ¬ LastWith l tag info := by
  rintro ⟨b, a, rfl, h2, _⟩
  exact h info (by simp) h2

theorem lookupLoop_spec (tag : Bytes) (infos : List ProgInfo) (found : Option ProgInfo) (c : InfoCache) :
    ∃ res c', lookupLoop tag (infos.map .ok) found c = (.ok res, c') ∧
      (∀ info, res = some info ↔ found = some info ∨ (found = none ∧ FirstWith infos tag info)) ∧
      ∀ t info, c'.get t = some info ↔
        LastWith infos t info ∨ ((∀ x ∈ infos, ¬ HasTag x t) ∧ c.get t = some info) := by
  induction infos generalizing found c with
  | nil =>
    refine ⟨found, c, rfl, ?_, ?_⟩
    · intro info; simp [FirstWith]
    · intro t info; simp [LastWith]
  | cons i l ih =>
    obtain ⟨h1, h2⟩ := insertTags_spec tag i (i.tag :: i.progTags) found c
    obtain ⟨res, c', h3, h4, h5⟩ := ih (insertTags tag i (i.tag :: i.progTags) found c).1
      (insertTags tag i (i.tag :: i.progTags) found c).2
    refine ⟨res, c', ?_, ?_, ?_⟩
    · rw [List.map_cons, lookupLoop]; exact h3
    · intro info
      rw [h4, h1, firstWith_cons]
      cases found with
      | some f => simp
      | none =>
        by_cases ht : tag ∈ i.tag :: i.progTags
        · have ht' := (hasTag_iff i tag).mp ht
          rw [if_pos ⟨rfl, ht⟩]
          simp [ht', eq_comm]
        · have ht' : ¬ HasTag i tag := fun h => ht ((hasTag_iff i tag).mpr h)
          rw [if_neg (fun h => ht h.2)]
          simp [ht']
    · intro t info
      rw [h5, h2, lastWith_cons]
      by_cases ht' : t ∈ i.tag :: i.progTags
      · have ht := (hasTag_iff i t).mp ht'
        rw [if_pos ht']
        simp only [ht, Option.some.injEq, true_and, List.mem_cons, forall_eq_or_imp, not_true_eq_false,
          false_and, or_false]
        constructor
        · rintro (h | ⟨h, rfl⟩)
          · exact Or.inl h
          · exact Or.inr ⟨rfl, h⟩
        · rintro (h | ⟨rfl, h⟩)
          · exact Or.inl h
          · exact Or.inr ⟨h, rfl⟩
      · have ht : ¬ HasTag i t := fun h => ht' ((hasTag_iff i t).mpr h)
        rw [if_neg ht']
        simp [ht]

/-- **C57** (known tags): information about a tag that is known is returned without asking the
kernel, whatever it would say. -/
theorem C57_known (c : InfoCache) (tag : Bytes) (info : ProgInfo) (h : c.get tag = some info)
    (rounds : List (Except Err ProgInfo)) : c.lookup tag rounds = (.ok (some info), c) := by
  unfold InfoCache.lookup
  rw [h]

/-- **C57** (other tags): otherwise the result is the first loaded program with the tag, and
nothing exactly if no program has it. -/
theorem C57_lookup (c : InfoCache) (tag : Bytes) (hc : c.get tag = none) (infos : List ProgInfo) :
    ∃ res, (c.lookup tag (infos.map .ok)).1 = .ok res ∧
      (∀ info, res = some info ↔ FirstWith infos tag info) ∧
      (res = none ↔ ∀ info ∈ infos, ¬ HasTag info tag) := by
  obtain ⟨res, c', h1, h2, _⟩ := lookupLoop_spec tag infos none []
  refine ⟨res, ?_, ?_, ?_⟩
  · unfold InfoCache.lookup; rw [hc]; simp only; rw [h1]
  · intro info; rw [h2]; simp
  · constructor
    · rintro rfl info hi ht
      have key : ∀ l : List ProgInfo, info ∈ l → ∃ i, FirstWith l tag i := by
        intro l
        induction l with
        | nil => simp
        | cons a l ih =>
          intro hm
          by_cases ha : HasTag a tag
          · exact ⟨a, (firstWith_cons ..).mpr (Or.inl ⟨ha, rfl⟩)⟩
          · rcases List.mem_cons.mp hm with rfl | hm
            · exact absurd ht ha
            · obtain ⟨i, hi⟩ := ih hm
              exact ⟨i, (firstWith_cons ..).mpr (Or.inr ⟨ha, hi⟩)⟩
      obtain ⟨i, hi⟩ := key infos hi
      have := (h2 i).mpr (Or.inr ⟨rfl, hi⟩)
      simp at this
    · intro h
      cases hr : res with
      | none => rfl
      | some info =>
        exfalso
        rcases (h2 info).mp hr with h' | ⟨_, b, a, rfl, ht, _⟩
        · simp at h'
        · exact h info (by simp) ht

/-- **C57** (what is remembered): after asking the kernel, the information for every tag is that of
the last loaded program with it; nothing from before is kept. -/
theorem C57_remembered (c : InfoCache) (tag : Bytes) (hc : c.get tag = none) (infos : List ProgInfo)
    (t : Bytes) (info : ProgInfo) :
    (c.lookup tag (infos.map .ok)).2.get t = some info ↔ LastWith infos t info := by
  obtain ⟨res, c', h1, _, h3⟩ := lookupLoop_spec tag infos none []
  unfold InfoCache.lookup
  rw [hc]
  simp only
  rw [h1]
  simp only
  rw [h3]
  constructor
  · rintro (h | ⟨_, h⟩)
    · exact h
    · simp [InfoCache.get] at h
  · exact Or.inl

/-- **C57** (errors): the first error the kernel reports is returned. -/
theorem C57_error (c : InfoCache) (tag : Bytes) (hc : c.get tag = none) (infos : List ProgInfo)
    (e : Err) (rest : List (Except Err ProgInfo)) :
    (c.lookup tag (infos.map .ok ++ .error e :: rest)).1 = .error e := by
  have key : ∀ (l : List ProgInfo) (found : Option ProgInfo) (c : InfoCache),
      (lookupLoop tag (l.map .ok ++ .error e :: rest) found c).1 = .error e := by
    intro l
    induction l with
    | nil => intro found c; rfl
    | cons a l ih => intro found c; rw [List.map_cons, List.cons_append, lookupLoop]; exact ih _ _
  unfold InfoCache.lookup
  rw [hc]
  exact key _ _ _

/-- **C57** (repeated lookups, the part that holds): if no two of the programs share the tag,
looking it up again gives the same program.  Without that it does not, see `C57_repeat_differs`. -/
theorem C57_repeat_partial (c : InfoCache) (tag : Bytes) (infos : List ProgInfo)
    (hu : ∀ i ∈ infos, ∀ j ∈ infos, HasTag i tag → HasTag j tag → i = j)
    (rounds : List (Except Err ProgInfo)) (info : ProgInfo)
    (h : (c.lookup tag (infos.map .ok)).1 = .ok (some info)) :
    ((c.lookup tag (infos.map .ok)).2.lookup tag rounds).1 = .ok (some info) := by
  cases hc : c.get tag with
  | some i =>
    rw [C57_known c tag i hc] at h ⊢
    rw [C57_known c tag i hc]
    exact h
  | none =>
    obtain ⟨res, h1, h2, _⟩ := C57_lookup c tag hc infos
    rw [h] at h1
    have h1' : some info = res := by simpa using h1
    obtain ⟨b, a, hi, ht, _⟩ := (h2 info).mp h1'.symm
    have hlast : ∃ j, LastWith infos tag j := by
      have key : ∀ l : List ProgInfo, info ∈ l → ∃ i, LastWith l tag i := by
        intro l
        induction l with
        | nil => simp
        | cons x l ih =>
          intro hm
          by_cases hx : ∃ y ∈ l, HasTag y tag
          · obtain ⟨y, hy, hyt⟩ := hx
            have key2 : ∀ l : List ProgInfo, (∃ y ∈ l, HasTag y tag) → ∃ i, LastWith l tag i := by
              intro l
              induction l with
              | nil => simp
              | cons z l ih2 =>
                intro _
                by_cases hz : ∃ y ∈ l, HasTag y tag
                · obtain ⟨i, hi⟩ := ih2 hz
                  exact ⟨i, (lastWith_cons ..).mpr (Or.inl hi)⟩
                · rename_i hex
                  obtain ⟨y, hy, hyt⟩ := hex
                  rcases List.mem_cons.mp hy with rfl | hy
                  · exact ⟨y, (lastWith_cons ..).mpr (Or.inr ⟨hyt, rfl, fun x hx hxt => hz ⟨x, hx, hxt⟩⟩)⟩
                  · exact absurd ⟨y, hy, hyt⟩ hz
            obtain ⟨i, hi⟩ := key2 l ⟨y, hy, hyt⟩
            exact ⟨i, (lastWith_cons ..).mpr (Or.inl hi)⟩
          · rcases List.mem_cons.mp hm with rfl | hm
            · exact ⟨_, (lastWith_cons ..).mpr (Or.inr ⟨ht, rfl, fun y hy hyt => hx ⟨y, hy, hyt⟩⟩)⟩
            · exact absurd ⟨info, hm, ht⟩ hx
      exact key infos (by rw [hi]; simp)
    obtain ⟨j, hj⟩ := hlast
    have hget := (C57_remembered c tag hc infos tag j).mpr hj
    rw [C57_known _ tag j hget]
    obtain ⟨b', a', hi', ht', _⟩ := hj
    rw [hu info (by rw [hi]; simp) j (by rw [hi']; simp) ht ht']

/-- **C57** (repeated lookups differ): if several programs have the tag, the first lookup answers
with the first of them and every later one with the last. -/
theorem C57_repeat_differs (c : InfoCache) (tag : Bytes) (hc : c.get tag = none) (infos : List ProgInfo)
    (a b : ProgInfo) (ha : FirstWith infos tag a) (hb : LastWith infos tag b) (rounds : List (Except Err ProgInfo)) :
    (c.lookup tag (infos.map .ok)).1 = .ok (some a) ∧
    ((c.lookup tag (infos.map .ok)).2.lookup tag rounds).1 = .ok (some b) := by
  obtain ⟨res, h1, h2, _⟩ := C57_lookup c tag hc infos
  refine ⟨by rw [h1, (h2 a).mpr ha], ?_⟩
  rw [C57_known _ tag b ((C57_remembered c tag hc infos tag b).mpr hb)]

/-! Concrete cases for C57: two programs that share a subprogram, with tag `[9]`. -/

def twoProgs : List ProgInfo := [⟨1, [1], [[9]]⟩, ⟨2, [2], [[9]]⟩]

example : FirstWith twoProgs [9] ⟨1, [1], [[9]]⟩ := ⟨[], _, rfl, Or.inr (by simp), by simp⟩
example : LastWith twoProgs [9] ⟨2, [2], [[9]]⟩ := ⟨[⟨1, [1], [[9]]⟩], [], rfl, Or.inr (by simp), by simp⟩
example : (InfoCache.lookup [] [9] (twoProgs.map .ok)).1 = .ok (some ⟨1, [1], [[9]]⟩) ∧
    ((InfoCache.lookup [] [9] (twoProgs.map .ok)).2.lookup [9] (twoProgs.map .ok)).1 = .ok (some ⟨2, [2], [[9]]⟩) := by
  decide +kernel
-- The condition of `C57_repeat_partial` holds for the tags that are not shared.
example : ∀ i ∈ twoProgs, ∀ j ∈ twoProgs, HasTag i [2] → HasTag j [2] → i = j := by
  unfold HasTag; decide

/-! ### Source locations -/

theorem nameAt_unique {strs : Bytes} {off : Nat} {a b : Bytes} (ha : NameAt strs off a) (hb : NameAt strs off b) :
    a = b := by
  obtain ⟨r, h1, h2⟩ := ha
  obtain ⟨r', h3, h4⟩ := hb
  rw [h1] at h3
  have e := congrArg (List.takeWhile (fun b : UInt8 => decide (b ≠ 0))) h3
  rw [List.takeWhile_append_of_pos (by simpa using h2), List.takeWhile_append_of_pos (by simpa using h4)] at e
  simpa using e

/-- The name at an offset of the BTF string section. -/
theorem btfName_some (btf : Btf) (off : Nat) (name : Bytes) :
    btf.name off = .ok (some name) ↔ ∃ strs, Strings btf strs ∧ NameAt strs off name := by
  unfold Btf.name Btf.rawStrs Strings
  constructor
  · intro h
    split at h
    · simp at h
    · rename_i strs hs
      split at hs
      · rename_i hle
        have hs' : (btf.data.drop (btf.hdrLen + btf.strOff)).take btf.strLen = strs := by simpa using hs
        refine ⟨strs, (isSlice_iff ..).mpr ⟨?_, ?_⟩, ?_⟩ <;> try omega
        · exact hs'.symm
        · split at h
          · split at h
            · rename_i n hn
              obtain ⟨a, w, b, h1, h2, hw, ha⟩ := position_eq_some_iff.mp hn
              have hw' : w = 0 := by simpa using hw
              have h' : (strs.drop off).take n = name := by simpa using h
              refine ⟨b, ?_, ?_⟩
              · rw [← h', h1, ← h2, List.take_left, hw']
              · rw [← h', h1, ← h2, List.take_left]
                intro x hx; simpa using ha x hx
            · simp at h
          · simp at h
      · simp at hs
  · rintro ⟨strs, h1, rest, h2, h3⟩
    obtain ⟨h1, h4⟩ := (isSlice_iff ..).mp h1
    rw [if_pos (by omega)]
    simp only
    rw [← h4]
    have hle : off ≤ strs.length := by
      by_contra hc
      rw [List.drop_eq_nil_of_le (by omega)] at h2
      simp at h2
    rw [if_pos hle]
    have hn : position (fun b => b == 0) (strs.drop off) = some name.length :=
      position_eq_some_iff.mpr ⟨name, 0, rest, h2, rfl, by decide, fun b hb => by simpa using h3 b hb⟩
    rw [hn, h2]
    simp

/-- The name at an offset: absent beyond the section, a panic if the section is not inside the data
or the string is not terminated. -/
theorem btfName_none (btf : Btf) (off : Nat) :
    btf.name off = .ok none ↔ ∃ strs, Strings btf strs ∧ strs.length < off := by
  unfold Btf.name Btf.rawStrs Strings
  by_cases hle : btf.hdrLen + btf.strOff + btf.strLen ≤ btf.data.length
  · rw [if_pos hle]
    simp only
    constructor
    · intro h
      refine ⟨_, (isSlice_iff ..).mpr ⟨hle, rfl⟩, ?_⟩
      split at h
      · split at h <;> simp at h
      · omega
    · rintro ⟨strs, h1, h2⟩
      obtain ⟨_, rfl⟩ := (isSlice_iff ..).mp h1
      rw [if_neg (by omega)]
  · rw [if_neg hle]
    constructor
    · intro h; simp at h
    · rintro ⟨strs, h1, _⟩; exact absurd ((isSlice_iff ..).mp h1).1 hle

theorem btfName_err {btf : Btf} {off : Nat} {e : Err} (h : btf.name off = .error e) : e = .panic := by
  unfold Btf.name Btf.rawStrs at h
  by_cases hle : btf.hdrLen + btf.strOff + btf.strLen ≤ btf.data.length
  · rw [if_pos hle] at h
    simp only at h
    split at h
    · split at h <;> simp at h
      exact h.symm
    · simp at h
  · rw [if_neg hle] at h
    simp at h
    exact h.symm

theorem btfName_panic (btf : Btf) (off : Nat) (e : Err) :
    btf.name off = .error e ↔ e = .panic ∧ ∀ strs, Strings btf strs →
      off ≤ strs.length ∧ ¬ ∃ name, NameAt strs off name := by
  constructor
  · intro h
    refine ⟨btfName_err h, fun strs hs => ⟨?_, ?_⟩⟩
    · by_contra hc
      rw [(btfName_none btf off).mpr ⟨strs, hs, by omega⟩] at h
      simp at h
    · rintro ⟨name, hn⟩
      rw [(btfName_some btf off name).mpr ⟨strs, hs, hn⟩] at h
      simp at h
  · rintro ⟨rfl, h⟩
    cases hr : btf.name off with
    | error e => rw [btfName_err hr]
    | ok o =>
      exfalso
      cases o with
      | none =>
        obtain ⟨strs, h1, h2⟩ := (btfName_none btf off).mp hr
        have := (h strs h1).1
        omega
      | some name =>
        obtain ⟨strs, h1, h2⟩ := (btfName_some btf off name).mp hr
        exact (h strs h1).2 ⟨name, h2⟩

theorem lineCol (l : BpfLineInfo) (line col : Nat) :
    (line = l.line ∧ col = l.column) ↔ l.lineCol = line * 1024 + col ∧ col < 1024 := by
  unfold BpfLineInfo.line BpfLineInfo.column
  have h1 : l.lineCol >>> 10 = l.lineCol / 1024 := Nat.shiftRight_eq_div_pow ..
  have h2 : l.lineCol &&& 0x3ff = l.lineCol % 1024 := Nat.and_two_pow_sub_one_eq_mod l.lineCol 10
  rw [h1, h2]
  omega

theorem lineRecords_ok (btf : Btf) (li : List BpfLineInfo) (jited : List Nat) (i : Nat) (rs : List LineInfoRecord) :
    lineRecords btf li jited i = .ok rs ↔
      rs.length = jited.length ∧ ∀ (k addr : Nat) (r : LineInfoRecord), jited[k]? = some addr → rs[k]? = some r →
        Record btf li (i + k) addr r := by
  induction jited generalizing i rs with
  | nil =>
    simp only [lineRecords, Except.ok.injEq]
    constructor
    · rintro rfl; simp
    · rintro ⟨h, _⟩; exact (List.length_eq_zero_iff.mp h).symm
  | cons a t ih =>
    rw [lineRecords]
    have hrec : ∀ r : LineInfoRecord, Record btf li i a r ↔ ∃ l name, li[i]? = some l ∧
        btf.name l.fileNameOff = .ok (some name) ∧ r = { addr := a, path := name, line := l.line, col := l.column } := by
      intro r
      constructor
      · rintro ⟨l, strs, h1, h2, h3, h4, h5⟩
        obtain ⟨h6, h7⟩ := (lineCol l r.line r.col).mpr h5
        refine ⟨l, r.path, h1, (btfName_some ..).mpr ⟨strs, h3, h4⟩, ?_⟩
        cases r; simp_all
      · rintro ⟨l, name, h1, h2, rfl⟩
        obtain ⟨strs, h3, h4⟩ := (btfName_some ..).mp h2
        exact ⟨l, strs, h1, rfl, h3, h4, (lineCol l _ _).mp ⟨rfl, rfl⟩⟩
    constructor
    · intro h
      split at h
      · simp at h
      · rename_i l hl
        split at h
        · simp at h
        · simp at h
        · rename_i name hname
          split at h
          · simp at h
          · rename_i rs' hrs'
            have h' : { addr := a, path := name, line := l.line, col := l.column } :: rs' = rs := by simpa using h
            subst h'
            obtain ⟨h1, h2⟩ := (ih (i + 1) rs').mp hrs'
            refine ⟨by simp [h1], ?_⟩
            intro k addr r hk hr
            cases k with
            | zero =>
              simp at hk hr
              subst hk
              exact (hrec r).mpr ⟨l, name, hl, hname, hr.symm⟩
            | succ k =>
              simp at hk hr
              have := h2 k addr r hk hr
              rwa [show i + 1 + k = i + (k + 1) by omega] at this
    · rintro ⟨h1, h2⟩
      cases rs with
      | nil => simp at h1
      | cons r rs =>
        obtain ⟨l, name, h3, h4, h5⟩ := (hrec r).mp (h2 0 a r rfl rfl)
        rw [h3]
        simp only
        rw [h4]
        simp only
        have : lineRecords btf li t (i + 1) = .ok rs := by
          rw [ih]
          refine ⟨by simpa using h1, ?_⟩
          intro k addr r' hk hr
          have := h2 (k + 1) addr r' (by simpa using hk) (by simpa using hr)
          rwa [show i + 1 + k = i + (k + 1) by omega]
        rw [this, h5]

/-- **C58** (records): the line records of a program are exactly those its line information
describes, one per address, sorted by address. -/
theorem C58_records (btf : Btf) (li : List BpfLineInfo) (jited : List Nat) (out : List LineInfoRecord) :
    queryLineInfo btf li jited = .ok out ↔
      ∃ rs : List LineInfoRecord, rs.length = jited.length ∧
        (∀ (k addr : Nat) (r : LineInfoRecord), jited[k]? = some addr → rs[k]? = some r → Record btf li k addr r) ∧
        StableSorted (fun r => r.addr) rs out := by
  unfold queryLineInfo
  constructor
  · intro h
    split at h
    · simp at h
    · rename_i rs hrs
      have h' : sortByKey (fun r : LineInfoRecord => r.addr) rs = out := by simpa using h
      obtain ⟨h1, h2⟩ := (lineRecords_ok ..).mp hrs
      exact ⟨rs, h1, by simpa using h2, h' ▸ sortByKey_stable _ _⟩
  · rintro ⟨rs, h1, h2, h3⟩
    rw [(lineRecords_ok btf li jited 0 rs).mpr ⟨h1, by simpa using h2⟩]
    simp only
    rw [StableSorted.unique (sortByKey_stable _ _) h3]

theorem lineRecords_err (btf : Btf) (li : List BpfLineInfo) (jited : List Nat) (i : Nat) (e : Err)
    (h : lineRecords btf li jited i = .error e) :
    e = .invalidData ∨ (e = .panic ∧ ∃ l ∈ li, btf.name l.fileNameOff = .error .panic) := by
  induction jited generalizing i with
  | nil => simp [lineRecords] at h
  | cons a t ih =>
    rw [lineRecords] at h
    split at h
    · have : Err.invalidData = e := by simpa using h
      exact Or.inl this.symm
    · rename_i l hl
      split at h
      · rename_i e' he'
        have h' : e' = e := by simpa using h
        subst h'
        have hp := ((btfName_panic ..).mp he').1
        subst hp
        exact Or.inr ⟨rfl, l, List.mem_of_getElem? hl, he'⟩
      · have : Err.invalidData = e := by simpa using h
        exact Or.inl this.symm
      · split at h
        · rename_i e' he'
          have h' : e' = e := by simpa using h
          subst h'
          exact ih _ he'
        · simp at h

/-- **C58** (errors): failing to gather the records means a record without line information or
file; it panics only if the string section is not inside the BTF data or a string is not
terminated. -/
theorem C58_errors (btf : Btf) (li : List BpfLineInfo) (jited : List Nat) (e : Err)
    (h : queryLineInfo btf li jited = .error e) :
    e = .invalidData ∨ (e = .panic ∧ ∃ l ∈ li, ∀ strs, Strings btf strs →
      ¬ ∃ name, NameAt strs l.fileNameOff name) := by
  unfold queryLineInfo at h
  split at h
  · rename_i e' he'
    have h' : e' = e := by simpa using h
    subst h'
    rcases lineRecords_err _ _ _ _ _ he' with h1 | ⟨h1, l, h2, h3⟩
    · exact Or.inl h1
    · exact Or.inr ⟨h1, l, h2, fun strs hs => (((btfName_panic ..).mp h3).2 strs hs).2⟩
  · simp at h

/-- **C58** (location): the location of an address is that of a record with the greatest address
not above it. -/
theorem C58_location {rs0 rs : List LineInfoRecord} (hs : StableSorted (fun r => r.addr) rs0 rs) (addr : Nat)
    (ci : CodeInfo) (h : bpfCodeInfo (some rs) addr = some ci) :
    ∃ r ∈ rs, r.addr ≤ addr ∧ (∀ r' ∈ rs, r'.addr ≤ addr → r'.addr ≤ r.addr) ∧
      ci = { dir := none, file := r.path, line := some r.line, column := some r.col } := by
  unfold bpfCodeInfo at h
  simp only at h
  split at h
  · simp at h
  · rename_i idx hidx
    split at h
    · simp at h
    · rename_i r hr
      obtain ⟨e, he, h1, _, h2⟩ := C07_lower_bound_greatest rs (fun r => r.addr) hs.1 addr idx hidx
      rw [hr] at he
      have he' : r = e := by simpa using he
      subst he'
      exact ⟨r, List.mem_of_getElem? hr, h1, h2, by simpa using h.symm⟩

/-- **C58** (location of a record's own address): if several records have the address that is
asked for, the first of them is used. -/
theorem C58_exact {rs0 rs : List LineInfoRecord} (hs : StableSorted (fun r => r.addr) rs0 rs) (addr : Nat)
    (r : LineInfoRecord) (h : (rs0.filter (fun r => decide (r.addr = addr))).head? = some r) :
    bpfCodeInfo (some rs) addr =
      some { dir := none, file := r.path, line := some r.line, column := some r.col } := by
  rw [← hs.2 addr] at h
  have hmem : r ∈ rs.filter (fun r => decide (r.addr = addr)) := List.mem_of_mem_head? h
  obtain ⟨hrm, hra⟩ := List.mem_filter.mp hmem
  have hra : r.addr = addr := by simpa using hra
  have hg : IsGreatestKeyLE rs (fun r => r.addr) addr addr := ⟨le_refl _, ⟨r, hrm, hra⟩, fun e _ he => he⟩
  unfold bpfCodeInfo
  simp only
  cases hidx : findMatchOrLowerBoundByKey rs addr (fun r => r.addr) with
  | none =>
    have := (C07_lower_bound_none rs (fun r => r.addr) hs.1 addr).mp hidx r hrm
    omega
  | some idx =>
    have hf := C07_first_of_equals_partial rs (fun r => r.addr) hs.1 addr addr hg (Or.inl rfl) idx hidx
    obtain ⟨⟨e, he, hea⟩, hbefore⟩ := hf
    simp only
    rw [he]
    simp only
    have : e = r := by
      obtain ⟨hlt, hget⟩ := List.getElem?_eq_some_iff.mp he
      have hsplit : rs = rs.take idx ++ e :: rs.drop (idx + 1) := by
        rw [← hget, List.cons_getElem_drop_succ, List.take_append_drop]
      rw [hsplit, List.filter_append] at h
      have hnil : (rs.take idx).filter (fun r => decide (r.addr = addr)) = [] := by
        rw [List.filter_eq_nil_iff]
        intro x hx
        obtain ⟨j, hj⟩ := List.mem_iff_getElem?.mp hx
        rw [List.getElem?_take] at hj
        split at hj
        · simpa using hbefore j x (by assumption) hj
        · simp at hj
      rw [hnil, List.nil_append, List.filter_cons_of_pos (by simpa using hea)] at h
      simpa using h
    rw [this]

/-- **C58** (no location): there is no location exactly if the program has no BTF information or
the address is before all records. -/
theorem C58_no_location {rs0 rs : List LineInfoRecord} (hs : StableSorted (fun r => r.addr) rs0 rs) (addr : Nat) :
    bpfCodeInfo none addr = none ∧ (bpfCodeInfo (some rs) addr = none ↔ ∀ r ∈ rs, addr < r.addr) := by
  refine ⟨rfl, ?_⟩
  rw [← C07_lower_bound_none rs (fun r => r.addr) hs.1 addr]
  unfold bpfCodeInfo
  simp only
  cases hidx : findMatchOrLowerBoundByKey rs addr (fun r => r.addr) with
  | none => simp
  | some idx =>
    obtain ⟨e, he, _⟩ := C07_lower_bound_greatest rs (fun r => r.addr) hs.1 addr idx hidx
    simp [he]

/-- **C58** (symbols): a BPF program is reported by its name and address, in module `[bpf]`, with
a location exactly if one was asked for and there is one; failing to get the line records is an
error exactly if a location was asked for. -/
theorem C58_symbol (prog : BpfProg) (addr : Nat) (opts : FindSymOpts)
    (lines : Except Err (Option (List LineInfoRecord))) :
    (opts = .basic → prog.resolve addr opts lines =
      .ok ⟨prog.name, some (ascii "[bpf]"), prog.addr, none, .unknown, none, []⟩) ∧
    (opts ≠ .basic → (∀ e, lines = .error e → prog.resolve addr opts lines = .error e) ∧
      ∀ records, lines = .ok records → prog.resolve addr opts lines =
        .ok ⟨prog.name, some (ascii "[bpf]"), prog.addr, none, .unknown, bpfCodeInfo records addr, []⟩) := by
  refine ⟨?_, ?_⟩
  · rintro rfl; rfl
  · intro h
    refine ⟨?_, ?_⟩
    · rintro e rfl
      cases opts <;> first | exact absurd rfl h | rfl
    · rintro records rfl
      cases opts <;> first | exact absurd rfl h | rfl

/-! Concrete cases for C58. -/

def demoBtf : Btf := ⟨ascii "hdr__tt" ++ [0] ++ ascii "a.c" ++ [0] ++ ascii "dir/b.h" ++ [0], 5, 2, 13⟩

example : queryLineInfo demoBtf [⟨1, 3 * 1024 + 7⟩, ⟨5, 9 * 1024⟩] [0x20, 0x10] =
    .ok [⟨0x10, ascii "dir/b.h", 9, 0⟩, ⟨0x20, ascii "a.c", 3, 7⟩] := by decide +kernel
example : queryLineInfo demoBtf [⟨1, 3 * 1024 + 7⟩] [0x20, 0x10] = .error .invalidData := by decide +kernel
example : queryLineInfo demoBtf [⟨20, 0⟩] [0x20] = .error .invalidData := by decide +kernel
example : bpfCodeInfo (some [⟨0x10, ascii "dir/b.h", 9, 0⟩, ⟨0x20, ascii "a.c", 3, 7⟩]) 0x1f =
    some ⟨none, ascii "dir/b.h", some 9, some 0⟩ := by decide +kernel
example : bpfCodeInfo (some [⟨0x10, ascii "dir/b.h", 9, 0⟩, ⟨0x20, ascii "a.c", 3, 7⟩]) 0xf = none := by
  decide +kernel

end Blazesym.Kernel
