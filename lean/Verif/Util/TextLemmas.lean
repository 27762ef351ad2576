import Verif.Util.Text
import Verif.Util.TextSpec
import Verif.Util.FormatLemmas
import Verif.Maps.MapsLemmas

/-! Lemmas about the text functions. -/

set_option autoImplicit false

namespace Blazesym.Util
open Blazesym.Spec Blazesym.Spec.Maps Blazesym.Maps

theorem toDigit_eq {base : Nat} (hb : base ≤ 36) (c : UInt8) :
    toDigit base c = if IsDigit base c then some (digitVal c) else none := by
  unfold toDigit IsDigit digitVal
  simp only
  split_ifs <;> simp_all <;> omega

theorem fromStrRadixLoop_iff {size base : Nat} (hb : base ≤ 36) (s : Bytes) (acc v : Nat) (ha : acc < size)
    (hb1 : 1 ≤ base) :
    fromStrRadixLoop size base s acc = some v ↔ (∀ c ∈ s, IsDigit base c) ∧
      s.foldl (fun acc c => acc * base + digitVal c) acc = v ∧ v < size := by
  induction s generalizing acc with
  | nil =>
    simp only [fromStrRadixLoop, Option.some.injEq, List.not_mem_nil, false_imp_iff, implies_true,
      List.foldl_nil, true_and]
    constructor
    · rintro rfl; exact ⟨rfl, ha⟩
    · rintro ⟨rfl, _⟩; rfl
  | cons c t ih =>
    unfold fromStrRadixLoop
    rw [toDigit_eq hb]
    by_cases hd : IsDigit base c
    · rw [if_pos hd]
      simp only
      by_cases hs : acc * base + digitVal c < size
      · rw [if_pos hs, ih _ hs]
        simp only [List.mem_cons, forall_eq_or_imp, hd, true_and, List.foldl_cons]
      · rw [if_neg hs]
        constructor
        · intro h; cases h
        · rintro ⟨_, h1, h2⟩
          exfalso
          apply hs
          refine lt_of_le_of_lt ?_ h2
          rw [← h1, List.foldl_cons]
          have key : ∀ (l : Bytes) (a : Nat), a ≤ l.foldl (fun acc c => acc * base + digitVal c) a := by
            intro l
            induction l with
            | nil => intro a; exact le_refl _
            | cons x xs ihx =>
              intro a
              rw [List.foldl_cons]
              refine le_trans ?_ (ihx _)
              have := Nat.mul_le_mul_left a hb1
              omega
          exact key t _
    · rw [if_neg hd]
      constructor
      · intro h; cases h
      · rintro ⟨h, _⟩; exact absurd (h c (by simp)) hd

theorem not_digit_sign {base : Nat} (hb : base ≤ 36) {c : UInt8} (h : c = 43 ∨ c = 45) : ¬ IsDigit base c := by
  unfold IsDigit
  rcases h with rfl | rfl
  · rw [show digitVal 43 = 1000 by decide]; omega
  · rw [show digitVal 45 = 1000 by decide]; omega

/-- Parsing a number accepts exactly the numbers that fit. -/
theorem fromStrRadix_iff {size base : Nat} (hb : base ≤ 36) (hb1 : 1 ≤ base) (hs : 0 < size) (s : Bytes) (v : Nat) :
    fromStrRadix size base s = some v ↔ NumText base s v ∧ v < size := by
  have hn : ∀ {t : Bytes} {x : UInt8}, (x = 43 ∨ x = 45) → ¬ NumText base (x :: t) v ∨ x = 43 := by
    intro t x hx
    rcases hx with rfl | rfl
    · exact Or.inr rfl
    · left
      rintro ⟨ds, h1 | h1, h2, h3, _⟩
      · subst h1; exact not_digit_sign hb (Or.inr rfl) (h3 45 (by simp))
      · cases h1
  have plain : ∀ {t : Bytes}, t ≠ [] → (∀ x xs, t = x :: xs → x ≠ 43) →
      (NumText base t v ↔ (∀ c ∈ t, IsDigit base c) ∧ numVal base t = v) := by
    intro t hne hx
    constructor
    · rintro ⟨ds, h1 | h1, h2, h3, h4⟩
      · subst h1; exact ⟨h3, h4⟩
      · exact absurd rfl (hx _ _ h1)
    · rintro ⟨h1, h2⟩
      exact ⟨t, Or.inl rfl, hne, h1, h2⟩
  unfold fromStrRadix
  match s with
  | [] =>
    simp only [reduceCtorEq, false_iff]
    rintro ⟨⟨ds, h1 | h1, h2, _⟩, _⟩
    · exact h2 h1.symm
    · cases h1
  | [c] =>
    simp only
    by_cases hc : c = 43 ∨ c = 45
    · rw [if_pos hc]
      constructor
      · intro h; cases h
      · rintro ⟨⟨ds, h1 | h1, h2, h3, _⟩, _⟩
        · subst h1
          exact absurd (h3 c (by simp)) (not_digit_sign hb hc)
        · cases h1
          exact absurd rfl h2
    · rw [if_neg hc, fromStrRadixLoop_iff hb _ _ _ hs hb1, plain (by simp) (by
        intro x xs h; cases h; exact fun h => hc (Or.inl h))]
      unfold numVal
      tauto
  | c :: c' :: t =>
    simp only
    by_cases hc : c = 43
    · subst hc
      rw [if_pos rfl, fromStrRadixLoop_iff hb _ _ _ hs hb1]
      constructor
      · rintro ⟨h1, h2, h3⟩
        exact ⟨⟨c' :: t, Or.inr rfl, by simp, h1, h2⟩, h3⟩
      · rintro ⟨⟨ds, h1 | h1, h2, h3, h4⟩, h5⟩
        · subst h1
          exact absurd (h3 43 (by simp)) (not_digit_sign hb (Or.inl rfl))
        · cases h1
          exact ⟨h3, h4, h5⟩
    · rw [if_neg hc, fromStrRadixLoop_iff hb _ _ _ hs hb1, plain (by simp) (by
        intro x xs h; cases h; exact hc)]
      unfold numVal
      tauto

theorem fields_ne_nil (p : UInt8 → Bool) (l : Bytes) : fields p l ≠ [] := by
  cases l with
  | nil => simp [fields]
  | cons b t =>
    unfold fields
    split
    · simp
    · split <;> simp

theorem fields_none {p : UInt8 → Bool} {l : Bytes} (h : ∀ b ∈ l, p b = false) : fields p l = [l] := by
  induction l with
  | nil => rfl
  | cons b t ih =>
    unfold fields
    rw [if_neg (by rw [h b (by simp)]; simp), ih (fun x hx => h x (by simp [hx]))]

theorem fields_sep {p : UInt8 → Bool} {a : Bytes} (h : ∀ b ∈ a, p b = false) {w : UInt8} (hw : p w = true) (r : Bytes) :
    fields p (a ++ w :: r) = a :: fields p r := by
  induction a with
  | nil => rw [List.nil_append]; unfold fields; rw [if_pos hw]; cases r <;> rfl
  | cons b t ih =>
    rw [List.cons_append]
    conv_lhs => unfold fields
    rw [if_neg (by rw [h b (by simp)]; simp), ih (fun x hx => h x (by simp [hx]))]

theorem sliceSplit_eq (p : UInt8 → Bool) (fuel : Nat) (l : Bytes) (h : l.length ≤ fuel) :
    sliceSplit p fuel l = fields p l := by
  induction fuel generalizing l with
  | zero =>
    have : l = [] := List.length_eq_zero_iff.mp (by omega)
    subst this; rfl
  | succ n ih =>
    unfold sliceSplit
    cases hp : position p l with
    | none =>
      simp only
      rw [fields_none (position_none.mp hp)]
    | some i =>
      simp only
      obtain ⟨a, w, b, h1, h2, h3, h4⟩ := position_eq_some_iff.mp hp
      subst h1
      rw [← h2, List.take_left, ih _ (by simp at h ⊢; omega), fields_sep h4 h3]
      congr 2
      rw [← List.drop_drop, List.drop_left]; rfl

theorem split_eq (p : UInt8 → Bool) (l : Bytes) : split p l = fields p l :=
  sliceSplit_eq p l.length l (le_refl _)

theorem fields_blank_prefix {sep : Bytes} (h : ∀ b ∈ sep, Blank b) (r : Bytes) :
    (fields isAsciiWs (sep ++ r)).filter (fun s => !s.isEmpty) =
      (fields isAsciiWs r).filter (fun s => !s.isEmpty) := by
  induction sep with
  | nil => rfl
  | cons b t ih =>
    have hb : isAsciiWs b = true := (isAsciiWs_iff b).mpr (h b (by simp))
    rw [List.cons_append]
    conv_lhs => unfold fields
    rw [if_pos hb, List.filter_cons]
    simpa using ih (fun x hx => h x (by simp [hx]))

/-- The words of a text are determined by it: they are what the model computes. -/
theorem words_unique {s : Bytes} {ws : List Bytes} (h : Words s ws) : splitAsciiWhitespace s = ws := by
  unfold splitAsciiWhitespace
  rw [split_eq]
  induction h with
  | done s h =>
    have := fields_blank_prefix h []
    rw [List.append_nil] at this
    rw [this]; rfl
  | word sep w rest ws hsep hne hw hrest hr ih =>
    rw [List.append_assoc, fields_blank_prefix hsep]
    have hw' : ∀ b ∈ w, isAsciiWs b = false := fun b hb => (isAsciiWs_false_iff b).mpr (hw b hb)
    have hne' : (!w.isEmpty) = true := by simpa using hne
    cases rest with
    | nil =>
      rw [List.append_nil, fields_none hw', List.filter_cons, if_pos hne']
      rw [← ih]; rfl
    | cons x r =>
      have hx : isAsciiWs x = true := (isAsciiWs_iff x).mpr (hrest x rfl)
      rw [fields_sep hw' hx, List.filter_cons, if_pos hne', ← ih]
      congr 1
      conv_rhs => unfold fields
      rw [if_pos hx, List.filter_cons]
      simp

theorem words_exist (s : Bytes) : ∃ ws, Words s ws := by
  induction hn : s.length using Nat.strong_induction_on generalizing s with
  | _ n ih =>
    subst hn
    have h1 : s = s.takeWhile isAsciiWs ++ s.dropWhile isAsciiWs := (List.takeWhile_append_dropWhile).symm
    have tw : ∀ (p : UInt8 → Bool) (l : Bytes), ∀ b ∈ l.takeWhile p, p b = true := by
      intro p l
      induction l with
      | nil => simp
      | cons a t iht =>
        rw [List.takeWhile_cons]
        split
        · rename_i ha
          intro b hb
          rcases List.mem_cons.mp hb with rfl | hb
          · exact ha
          · exact iht b hb
        · simp
    have dw : ∀ (p : UInt8 → Bool) (l : Bytes) (b : UInt8), (l.dropWhile p).head? = some b → p b = false := by
      intro p l
      induction l with
      | nil => simp
      | cons a t iht =>
        rw [List.dropWhile_cons]
        split
        · exact iht
        · rename_i ha
          intro b hb
          simp at hb
          subst hb
          simpa using ha
    have hsep : ∀ b ∈ s.takeWhile isAsciiWs, Blank b := fun b hb => (isAsciiWs_iff b).mp (tw _ _ b hb)
    cases hd : s.dropWhile isAsciiWs with
    | nil =>
      rw [hd, List.append_nil] at h1
      exact ⟨[], .done s (by rw [h1]; exact hsep)⟩
    | cons a t =>
      have ha : isAsciiWs a = false := dw _ s a (by rw [hd]; rfl)
      generalize hd' : s.dropWhile isAsciiWs = d at *
      have h2 : d = d.takeWhile (fun b => !isAsciiWs b) ++ d.dropWhile (fun b => !isAsciiWs b) :=
        (List.takeWhile_append_dropWhile).symm
      have hlen : (d.dropWhile (fun b => !isAsciiWs b)).length < s.length := by
        rw [h1]
        subst hd
        rw [List.dropWhile_cons, if_pos (by simp [ha]), List.length_append, List.length_cons]
        have := (List.dropWhile_suffix (l := t) (fun b => !isAsciiWs b)).length_le
        omega
      obtain ⟨ws, hws⟩ := ih _ hlen _ rfl
      refine ⟨d.takeWhile (fun b => !isAsciiWs b) :: ws, ?_⟩
      have := Words.word (s.takeWhile isAsciiWs) (d.takeWhile (fun b => !isAsciiWs b))
        (d.dropWhile (fun b => !isAsciiWs b)) ws hsep ?_ ?_ ?_ hws
      · rw [List.append_assoc, ← h2, ← h1] at this
        exact this
      · subst hd
        rw [List.takeWhile_cons, if_pos (by simp [ha])]
        simp
      · intro b hb
        have := tw _ _ b hb
        exact (isAsciiWs_false_iff b).mp (by simpa using this)
      · intro b hb
        have := dw _ _ b hb
        exact (isAsciiWs_iff b).mp (by simpa using this)

theorem words_iff (s : Bytes) (ws : List Bytes) : splitAsciiWhitespace s = ws ↔ Words s ws := by
  constructor
  · rintro rfl
    obtain ⟨ws, h⟩ := words_exist s
    rw [words_unique h]
    exact h
  · exact words_unique

theorem trimStartMatches_spec (pat : Bytes) (hp : pat ≠ []) (fuel : Nat) (l : Bytes) (h : l.length ≤ fuel) :
    ∃ n, l = (List.replicate n pat).flatten ++ trimStartMatches pat fuel l ∧
      ¬ ∃ r, trimStartMatches pat fuel l = pat ++ r := by
  induction fuel generalizing l with
  | zero =>
    have : l = [] := List.length_eq_zero_iff.mp (by omega)
    subst this
    refine ⟨0, rfl, ?_⟩
    rintro ⟨r, hr⟩
    simp [trimStartMatches] at hr
    exact hp hr.1
  | succ n ih =>
    unfold trimStartMatches
    cases hs : stripPrefix l pat with
    | none =>
      refine ⟨0, rfl, ?_⟩
      rintro ⟨r, hr⟩
      simp only at hr
      rw [stripPrefix_some_iff.mpr hr] at hs
      cases hs
    | some r =>
      simp only
      rw [stripPrefix_some_iff] at hs
      subst hs
      have hpos : 0 < pat.length := List.length_pos_iff.mpr hp
      obtain ⟨k, h1, h2⟩ := ih r (by rw [List.length_append] at h; omega)
      refine ⟨k + 1, ?_, h2⟩
      rw [List.replicate_succ, List.flatten_cons, List.append_assoc, ← h1]

theorem splitLines_last {s : Bytes} (hne : s ≠ []) (h : ∀ b ∈ s, b ≠ 10) : splitLines s = [s] := by
  induction s with
  | nil => exact absurd rfl hne
  | cons b t ih =>
    rw [splitLines, if_neg (h b (by simp))]
    by_cases ht : t = []
    · subst ht; rfl
    · rw [ih ht (fun x hx => h x (by simp [hx]))]

theorem lines_split {t : Bytes} {ls : List Bytes} (h : Lines t ls) : splitLines t = ls := by
  induction h with
  | nil => rfl
  | last s hne h => exact splitLines_last hne h
  | line s rest ls h _ ih => rw [splitLines_append s rest h, ih]

theorem lines_exist (t : Bytes) : ∃ ls, Lines t ls := by
  induction hn : t.length using Nat.strong_induction_on generalizing t with
  | _ n ih =>
    cases hs : splitBytes t (fun b => b == 10) with
    | none =>
      have := splitBytes_none_iff.mp hs
      by_cases ht : t = []
      · subst ht; exact ⟨[], .nil⟩
      · exact ⟨[t], .last t ht (fun b hb => by simpa using this b hb)⟩
    | some p =>
      obtain ⟨a, b⟩ := p
      obtain ⟨w, rfl, hw, ha⟩ := splitBytes_some_iff.mp hs
      have hw' : w = 10 := by simpa using hw
      subst hw'
      obtain ⟨ls, hls⟩ := ih b.length (by simp at hn; omega) b rfl
      have := Lines.line a b ls (fun x hx => by simpa using ha x hx) hls
      exact ⟨_, by simpa using this⟩

/-- The lines of a text. -/
theorem lines_iff (t : Bytes) (ls : List Bytes) : splitLines t = ls ↔ Lines t ls := by
  constructor
  · rintro rfl
    obtain ⟨ls, h⟩ := lines_exist t
    rwa [lines_split h]
  · exact lines_split

end Blazesym.Util
