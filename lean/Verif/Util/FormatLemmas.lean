import Verif.Util.Format
import Verif.Util.BytesSpec
import Verif.Util.ReaderProps

/-! Helper lemmas for `Verif.Util.Format` and `Verif.Util.Bytes`. -/

set_option autoImplicit false

namespace Blazesym.Util
open Blazesym.Spec

theorem position_eq_some_iff {p : UInt8 → Bool} {l : Bytes} {i : Nat} :
    position p l = some i ↔ ∃ a w b, l = a ++ w :: b ∧ a.length = i ∧ p w = true ∧ ∀ x ∈ a, p x = false := by
  constructor
  · intro h
    obtain ⟨w, h1, h2, h3, h4⟩ := position_some h
    exact ⟨_, w, _, h1, by simp; omega, h2, h3⟩
  · rintro ⟨a, w, b, rfl, rfl, hw, ha⟩
    exact position_append a w b ha hw

theorem splitBytes_some_iff {l : Bytes} {p : UInt8 → Bool} {a b : Bytes} :
    splitBytes l p = some (a, b) ↔ ∃ w, l = a ++ w :: b ∧ p w = true ∧ ∀ x ∈ a, p x = false := by
  unfold splitBytes
  constructor
  · intro h
    cases hp : position p l with
    | none => rw [hp] at h; cases h
    | some i =>
      rw [hp] at h
      obtain ⟨a', w, b', rfl, rfl, hw, ha⟩ := position_eq_some_iff.mp hp
      simp at h
      obtain ⟨rfl, rfl⟩ := h
      exact ⟨w, rfl, hw, ha⟩
  · rintro ⟨w, rfl, hw, ha⟩
    rw [position_append a w b ha hw]
    simp

theorem splitBytes_none_iff {l : Bytes} {p : UInt8 → Bool} :
    splitBytes l p = none ↔ ∀ x ∈ l, p x = false := by
  unfold splitBytes
  rw [← position_none]
  cases position p l <;> simp

theorem splitOnce_eq (l : Bytes) (p : UInt8 → Bool) : splitOnce l p = splitBytes l p := by
  unfold splitOnce splitBytes
  cases position p l with
  | none => rfl
  | some i => simp

theorem stripSuffix_some_iff {l s r : Bytes} : stripSuffix l s = some r ↔ l = r ++ s := by
  unfold stripSuffix
  constructor
  · intro h
    split at h
    · rename_i hc
      cases h
      conv_lhs => rw [← List.take_append_drop (l.length - s.length) l, hc.2]
    · cases h
  · rintro rfl
    simp

theorem stripSuffix_none_iff {l s : Bytes} : stripSuffix l s = none ↔ ¬ ∃ r, l = r ++ s := by
  constructor
  · rintro h ⟨r, hr⟩
    rw [stripSuffix_some_iff.mpr hr] at h
    cases h
  · intro h
    cases hs : stripSuffix l s with
    | none => rfl
    | some r => exact absurd ⟨r, stripSuffix_some_iff.mp hs⟩ h

theorem stripPrefix_some_iff {l s r : Bytes} : stripPrefix l s = some r ↔ l = s ++ r := by
  unfold stripPrefix
  constructor
  · intro h
    split at h
    · rename_i hc
      cases h
      conv_lhs => rw [← List.take_append_drop s.length l, hc]
    · cases h
  · rintro rfl
    simp

/-! ### Trimming -/

theorem dropWhile_all {p : UInt8 → Bool} {a : Bytes} (h : ∀ x ∈ a, p x = true) (b : Bytes) :
    (a ++ b).dropWhile p = b.dropWhile p := by
  induction a with
  | nil => rfl
  | cons x t ih =>
    simp only [List.cons_append, List.dropWhile_cons, h x (by simp), if_true]
    exact ih (fun y hy => h y (by simp [hy]))

theorem dropWhile_head {p : UInt8 → Bool} {l : Bytes} (h : ∀ x, l.head? = some x → p x = false) :
    l.dropWhile p = l := by
  cases l with
  | nil => rfl
  | cons x t => simp [List.dropWhile_cons, h x rfl]

/-- Trimming removes blanks on both sides and nothing else. -/
theorem trimAscii_eq {a m b : Bytes} (ha : ∀ x ∈ a, isAsciiWs x = true) (hb : ∀ x ∈ b, isAsciiWs x = true)
    (hm1 : ∀ x, m.head? = some x → isAsciiWs x = false)
    (hm2 : ∀ x, m.getLast? = some x → isAsciiWs x = false) :
    trimAscii (a ++ m ++ b) = m := by
  unfold trimAscii trimAsciiStart trimAsciiEnd
  rw [List.append_assoc, dropWhile_all ha]
  cases m with
  | nil =>
    have := dropWhile_all hb []
    simp only [List.append_nil, List.dropWhile_nil] at this
    simp [this]
  | cons x t =>
    rw [dropWhile_head (l := x :: t ++ b) (by intro y hy; exact hm1 y (by simpa using hy))]
    rw [List.reverse_append, dropWhile_all (by simpa using hb), dropWhile_head]
    · simp
    · intro y hy
      exact hm2 y (by rwa [List.head?_reverse] at hy)

theorem trimAscii_split (l : Bytes) : ∃ a b, l = a ++ trimAscii l ++ b ∧
    (∀ x ∈ a, isAsciiWs x = true) ∧ (∀ x ∈ b, isAsciiWs x = true) ∧
    (∀ x, (trimAscii l).head? = some x → isAsciiWs x = false) ∧
    (∀ x, (trimAscii l).getLast? = some x → isAsciiWs x = false) := by
  have h1 : l = l.takeWhile isAsciiWs ++ trimAsciiStart l := (List.takeWhile_append_dropWhile).symm
  have h2 : trimAsciiStart l = trimAscii l ++ ((trimAsciiStart l).reverse.takeWhile isAsciiWs).reverse := by
    unfold trimAscii trimAsciiEnd
    rw [← List.reverse_append, List.takeWhile_append_dropWhile, List.reverse_reverse]
  have h3 : ∀ x, (trimAscii l).getLast? = some x → isAsciiWs x = false := by
    intro x hx
    unfold trimAscii trimAsciiEnd at hx
    rw [List.getLast?_reverse] at hx
    have := List.head?_dropWhile_not isAsciiWs (trimAsciiStart l).reverse
    rw [hx] at this
    simpa using this
  refine ⟨_, _, h1.trans (by rw [List.append_assoc, ← h2]), ?_, ?_, ?_, h3⟩
  · exact List.all_eq_true.mp (List.all_takeWhile ..)
  · intro x hx
    rw [List.mem_reverse] at hx
    exact List.all_eq_true.mp (List.all_takeWhile ..) x hx
  · intro x hx
    have : (trimAsciiStart l).head? = some x := by
      rw [h2]
      cases ht : trimAscii l with
      | nil => rw [ht] at hx; cases hx
      | cons y t => rw [ht] at hx; simpa using hx
    have hh := List.head?_dropWhile_not isAsciiWs l
    unfold trimAsciiStart at this
    rw [this] at hh
    simpa using hh

/-! ### Lines -/

/-- The lines concatenated are the text. -/
theorem splitLines_flatten (t : Bytes) : (splitLines t).flatten = t := by
  induction t with
  | nil => rfl
  | cons b t ih =>
    unfold splitLines
    split
    · simp [ih]
    · split
      · rename_i h; rw [h] at ih; simp at ih; simp [← ih]
      · rename_i l ls h; rw [h] at ih; simp at ih; simp [ih]

/-- Every line is nonempty; it has a newline only at its end; all lines but the last end in
one. -/
theorem splitLines_lines (t : Bytes) :
    (∀ l ∈ splitLines t, ∃ s, (∀ b ∈ s, b ≠ 10) ∧ (l = s ++ [10] ∨ (l = s ∧ s ≠ []))) ∧
    (∀ l ∈ (splitLines t).dropLast, ∃ s, l = s ++ [10]) := by
  induction t with
  | nil => simp [splitLines]
  | cons b t ih =>
    obtain ⟨h1, h2⟩ := ih
    unfold splitLines
    split
    · rename_i hb
      subst hb
      constructor
      · intro l hl
        rcases List.mem_cons.mp hl with rfl | hl
        · exact ⟨[], by simp, Or.inl rfl⟩
        · exact h1 l hl
      · intro l hl
        cases hs : splitLines t with
        | nil => rw [hs] at hl; simp at hl
        | cons l0 ls =>
          rw [hs] at hl h2
          rw [List.dropLast_cons_cons] at hl
          rcases List.mem_cons.mp hl with rfl | hl
          · exact ⟨[], rfl⟩
          · exact h2 l hl
    · rename_i hb
      split
      · constructor
        · intro l hl
          simp only [List.mem_singleton] at hl
          subst hl
          exact ⟨[b], by simpa using hb, Or.inr ⟨rfl, by simp⟩⟩
        · intro l hl; simp at hl
      · rename_i l0 ls hs
        rw [hs] at h1 h2
        constructor
        · intro l hl
          rcases List.mem_cons.mp hl with rfl | hl
          · obtain ⟨s, k1, k2⟩ := h1 l0 (by simp)
            refine ⟨b :: s, ?_, ?_⟩
            · intro x hx
              rcases List.mem_cons.mp hx with rfl | hx
              · exact hb
              · exact k1 x hx
            · rcases k2 with rfl | ⟨rfl, _⟩
              · exact Or.inl rfl
              · exact Or.inr ⟨rfl, by simp⟩
          · exact h1 l (by simp [hl])
        · intro l hl
          cases ls with
          | nil => simp at hl
          | cons l1 ls =>
            rw [List.dropLast_cons_cons] at hl h2
            rcases List.mem_cons.mp hl with rfl | hl
            · obtain ⟨s, rfl⟩ := h2 l0 (by simp)
              exact ⟨b :: s, rfl⟩
            · exact h2 l (by simp [hl])

theorem splitLines_append (s t : Bytes) (hs : ∀ b ∈ s, b ≠ 10) :
    splitLines (s ++ [10] ++ t) = (s ++ [10]) :: splitLines t := by
  induction s with
  | nil => simp [splitLines]
  | cons b s ih =>
    have hb : b ≠ 10 := hs b (by simp)
    simp only [List.cons_append, splitLines, if_neg hb]
    have := ih (fun x hx => hs x (by simp [hx]))
    simp only [List.append_assoc] at this ⊢
    rw [this]

/-- A text made of newline terminated lines is split into these. -/
theorem splitLines_join (ls : List Bytes) (h : ∀ l ∈ ls, ∃ s, (∀ b ∈ s, b ≠ 10) ∧ l = s ++ [10]) :
    splitLines ls.flatten = ls := by
  induction ls with
  | nil => rfl
  | cons l ls ih =>
    obtain ⟨s, h1, rfl⟩ := h l (by simp)
    rw [List.flatten_cons, splitLines_append s _ h1, ih (fun x hx => h x (by simp [hx]))]

/-! ### Formatting -/

theorem digitVal_digitChar {d : Nat} (h : d < 16) : digitVal (digitChar d) = d := by
  have : ∀ d : Fin 16, digitVal (digitChar d.val) = d.val := by decide
  exact this ⟨d, h⟩

theorem numVal_snoc (base : Nat) (s : Bytes) (c : UInt8) :
    numVal base (s ++ [c]) = numVal base s * base + digitVal c := by
  unfold numVal
  rw [List.foldl_append]
  rfl

theorem fmtLoop_spec (base : Nat) (hb : 2 ≤ base) (hb' : base ≤ 16) (fuel n : Nat) (h : n < base ^ fuel) :
    (∀ c ∈ fmtLoop base fuel n, IsDigit base c) ∧ numVal base (fmtLoop base fuel n) = n := by
  induction fuel generalizing n with
  | zero => simp at h; subst h; simp [fmtLoop, numVal]
  | succ fuel ih =>
    unfold fmtLoop
    by_cases hn : n < base
    · rw [if_pos hn]
      have hd := digitVal_digitChar (show n < 16 by omega)
      constructor
      · intro c hc
        simp only [List.mem_singleton] at hc
        subst hc
        unfold IsDigit
        omega
      · simp [numVal, hd]
    · rw [if_neg hn]
      have hq : n / base < base ^ fuel := by
        rw [Nat.div_lt_iff_lt_mul (by omega)]
        rwa [Nat.pow_succ] at h
      obtain ⟨i1, i2⟩ := ih _ hq
      have hm : n % base < base := Nat.mod_lt _ (by omega)
      have hd := digitVal_digitChar (show n % base < 16 by omega)
      constructor
      · intro c hc
        rcases List.mem_append.mp hc with hc | hc
        · exact i1 c hc
        · simp only [List.mem_singleton] at hc
          subst hc
          unfold IsDigit
          omega
      · rw [numVal_snoc, i2, hd, Nat.mul_comm]
        exact Nat.div_add_mod n base

theorem fmtHex_spec (n : Nat) (h : n < 2 ^ 64) :
    (∀ c ∈ fmtHex n, IsDigit 16 c) ∧ numVal 16 (fmtHex n) = n :=
  fmtLoop_spec 16 (by omega) (by omega) 16 n (by norm_num; omega)

theorem fmtDec_spec (n : Nat) (h : n < 2 ^ 64) :
    (∀ c ∈ fmtDec n, IsDigit 10 c) ∧ numVal 10 (fmtDec n) = n :=
  fmtLoop_spec 10 (by omega) (by omega) 20 n (by norm_num; omega)

theorem fmtHex_inj {n m : Nat} (hn : n < 2 ^ 64) (hm : m < 2 ^ 64) (h : fmtHex n = fmtHex m) : n = m := by
  rw [← (fmtHex_spec n hn).2, ← (fmtHex_spec m hm).2, h]

theorem fmtDec_inj {n m : Nat} (hn : n < 2 ^ 64) (hm : m < 2 ^ 64) (h : fmtDec n = fmtDec m) : n = m := by
  rw [← (fmtDec_spec n hn).2, ← (fmtDec_spec m hm).2, h]

end Blazesym.Util
