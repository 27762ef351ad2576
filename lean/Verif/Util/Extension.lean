import Verif.Util.Path
import Verif.Util.PathProps

/-! # Model of `Path::file_name` and `Path::extension` (standard library, Unix) -/

set_option autoImplicit false

namespace Blazesym.Util
open Blazesym.Spec

/-- `Path::file_name`: the last component unless it is the root, `.` or `..`. -/
def fileName (path : Bytes) : Option Bytes :=
  match splitLast path with
  | some (_, comp) => if comp = [47] ∨ comp = [46] ∨ comp = [46, 46] then none else some comp
  | none => none

/-- `rsplit_file_at_dot`, `Path::extension`: what comes after the last dot of the file name,
unless that is its first byte. -/
def extension (path : Bytes) : Option Bytes :=
  match fileName path with
  | none => none
  | some file =>
    let after := (file.reverse.takeWhile (fun b => b != 46)).reverse
    let before := file.take (file.length - (after.length + 1))
    if file.length ≤ after.length then none
    else if before = [] then none
    else some after

/-- `Path::with_extension("")`: the path up to the end of the file name without its extension. -/
def withoutExtension (path : Bytes) : Bytes :=
  match fileName path with
  | none => path
  | some _ =>
    let trimmed := trimRight path.length path
    match extension path with
    | none => trimmed
    | some e => trimmed.take (trimmed.length - (e.length + 1))

theorem fileName_iff (path c : Bytes) : fileName path = some c ↔
    (components path).getLast? = some c ∧ c ≠ [47] ∧ c ≠ [46] ∧ c ≠ [46, 46] := by
  unfold fileName
  cases h : splitLast path with
  | none =>
    rw [C55_split_none] at h
    simp [h]
  | some x =>
    obtain ⟨dir, comp⟩ := x
    have hc := (C55_split_last path dir comp h).1
    rw [hc]
    simp only [List.getLast?_append, List.getLast?_singleton, Option.some_or, Option.some.injEq]
    constructor
    · intro h
      split at h
      · simp at h
      · rename_i hn
        simp only [Option.some.injEq] at h
        subst h
        simp only [not_or] at hn
        exact ⟨rfl, hn⟩
    · rintro ⟨rfl, h1, h2, h3⟩
      rw [if_neg (by simp [h1, h2, h3])]

/-- **C55** (extension): the extension of a path is what follows the last dot in its last
component, provided something precedes that dot. -/
theorem C55_extension (path e : Bytes) : extension path = some e ↔
    ∃ base, (components path).getLast? = some (base ++ 46 :: e) ∧ base ≠ [] ∧ 46 ∉ e ∧ base ++ 46 :: e ≠ [46, 46] := by
  unfold extension
  cases hf : fileName path with
  | none =>
    simp only [reduceCtorEq, false_iff]
    rintro ⟨base, h1, h2, h3, h4⟩
    have : fileName path = some (base ++ 46 :: e) := (fileName_iff ..).mpr ⟨h1, ?_, ?_, h4⟩
    · rw [hf] at this; simp at this
    · intro h; have := congrArg List.length h; cases base <;> simp_all
    · intro h; have := congrArg List.length h; cases base <;> simp_all
  | some file =>
    obtain ⟨h1, _, _, hdd⟩ := (fileName_iff ..).mp hf
    simp only
    rw [h1]
    have hsplit : file = (file.reverse.dropWhile (fun b => b != 46)).reverse ++
        (file.reverse.takeWhile (fun b => b != 46)).reverse := by
      rw [← List.reverse_append, List.takeWhile_append_dropWhile, List.reverse_reverse]
    have hno : 46 ∉ (file.reverse.takeWhile (fun b => b != 46)).reverse := by
      intro h
      have := List.all_takeWhile (p := fun b : UInt8 => b != 46) (l := file.reverse)
      rw [List.all_eq_true] at this
      have := this 46 (List.mem_reverse.mp h)
      simp at this
    have hhead := List.head?_dropWhile_not (fun b : UInt8 => b != 46) file.reverse
    generalize (file.reverse.takeWhile (fun b => b != 46)).reverse = after at hsplit hno
    generalize file.reverse.dropWhile (fun b => b != 46) = d at hsplit hhead
    cases d with
    | nil =>
      simp only [List.reverse_nil, List.nil_append] at hsplit
      rw [if_pos (by rw [hsplit])]
      simp only [reduceCtorEq, false_iff]
      rintro ⟨base, h2, h3, h4, h5⟩
      simp only [Option.some.injEq] at h2
      apply hno
      rw [← hsplit, h2]
      simp
    | cons x t =>
      simp only [List.head?_cons] at hhead
      have hx : x = 46 := by simpa using hhead
      subst hx
      simp only [List.reverse_cons, List.append_assoc, List.singleton_append] at hsplit
      have hl : file.length = t.length + after.length + 1 := by rw [hsplit]; simp; omega
      have hb : file.take (file.length - (after.length + 1)) = t.reverse := by
        rw [hl, hsplit]
        rw [List.take_append_of_le_length (by simp), List.take_of_length_le (by simp)]
      rw [if_neg (by omega), hb]
      constructor
      · intro h
        split at h
        · simp at h
        · rename_i hne
          have : after = e := by simpa using h
          subst this
          exact ⟨t.reverse, by rw [← hsplit], hne, hno, by rw [← hsplit]; exact hdd⟩
      · rintro ⟨base, h2, h3, h4, h5⟩
        simp only [Option.some.injEq] at h2
        rw [hsplit] at h2
        have key : ∀ (a b : Bytes) (c d : Bytes), 46 ∉ c → 46 ∉ d → a ++ 46 :: c = b ++ 46 :: d → a = b ∧ c = d := by
          intro a
          induction a with
          | nil =>
            intro b c d hc hd h
            cases b with
            | nil => simpa using h
            | cons y b =>
              simp at h
              exact absurd (by rw [h.2]; simp : (46 : UInt8) ∈ c) hc
          | cons y a ih =>
            intro b c d hc hd h
            cases b with
            | nil =>
              simp at h
              exact absurd (by rw [← h.2]; simp : (46 : UInt8) ∈ d) hd
            | cons z b =>
              simp at h
              obtain ⟨i1, i2⟩ := ih b c d hc hd h.2
              exact ⟨by rw [h.1, i1], i2⟩
        obtain ⟨k1, k2⟩ := key _ _ _ _ hno h4 h2
        rw [if_neg (by rw [k1]; exact h3), k2]

theorem hasExtension_iff (path e : Bytes) (h : 46 ∉ e) (hne : e ≠ []) :
    HasExtension path e ↔ extension path = some e := by
  rw [C55_extension]
  unfold HasExtension
  constructor
  · rintro ⟨base, h1, h2⟩
    refine ⟨base, h1, h2, h, ?_⟩
    intro hc
    cases base with
    | nil => exact h2 rfl
    | cons b t =>
      cases e with
      | nil => exact hne rfl
      | cons c u =>
        have := congrArg List.length hc
        simp at this
        omega
  · rintro ⟨base, h1, h2, _⟩
    exact ⟨base, h1, h2⟩

example : extension (ascii "/lib/modules/a.b.ko.gz") = some (ascii "gz") ∧ extension (ascii "/x/.gz") = none ∧
    extension (ascii "/x.gz/ko") = none ∧ extension (ascii "m.ko.zst") = some (ascii "zst") := by decide +kernel

theorem pieces_last (p c : Bytes) (h : (pieces p).getLast? = some c) :
    (∀ b ∈ c, b ≠ 47) ∧ (p = c ∨ ∃ x, p = x ++ 47 :: c) := by
  induction p generalizing c with
  | nil =>
    simp only [pieces, List.getLast?_singleton, Option.some.injEq] at h
    subst h
    exact ⟨by simp, Or.inl rfl⟩
  | cons b t ih =>
    unfold pieces at h
    have hne := pieces_ne_nil t
    split at h
    · rename_i hb
      subst hb
      have h' : (pieces t).getLast? = some c := by
        rw [List.getLast?_cons] at h
        cases hg : (pieces t).getLast? with
        | none => exact absurd (List.getLast?_eq_none_iff.mp hg) hne
        | some x => rw [hg] at h; simpa using h
      obtain ⟨h1, h2⟩ := ih c h'
      refine ⟨h1, Or.inr ?_⟩
      rcases h2 with rfl | ⟨x, rfl⟩
      · exact ⟨[], rfl⟩
      · exact ⟨47 :: x, rfl⟩
    · rename_i hb
      cases hp : pieces t with
      | nil => exact absurd hp hne
      | cons q qs =>
        rw [hp] at h
        simp only at h
        cases qs with
        | nil =>
          simp only [List.getLast?_singleton, Option.some.injEq] at h
          subst h
          obtain ⟨h1, h2⟩ := ih q (by rw [hp]; rfl)
          have : t = q := by
            rcases h2 with h2 | ⟨x, rfl⟩
            · exact h2
            · rw [pieces_append h1] at hp
              have := congrArg List.length hp
              have h3 : 0 < (pieces x).length := List.length_pos_iff.mpr (pieces_ne_nil x)
              simp only [List.length_append, List.length_cons, List.length_nil] at this
              omega
          subst this
          exact ⟨by simpa using ⟨hb, h1⟩, Or.inl rfl⟩
        | cons r rs =>
          obtain ⟨h1, h2⟩ := ih c (by rw [hp]; simpa [List.getLast?_cons] using h)
          refine ⟨h1, Or.inr ?_⟩
          rcases h2 with rfl | ⟨x, rfl⟩
          · rw [pieces_noslash h1] at hp
            simp at hp
          · exact ⟨b :: x, rfl⟩

/-- **C55** (extension removed): a path without the extension of its file name has the same components
but for the last one, which ends before the last dot. -/
theorem C55_without_extension (path base e : Bytes) (h : (components path).getLast? = some (base ++ 46 :: e))
    (hb : base ≠ []) (hb' : base ≠ [46]) (he : 46 ∉ e) (hd : base ++ 46 :: e ≠ [46, 46]) :
    withoutExtension path <+: path ∧
      components (withoutExtension path) = (components path).dropLast ++ [base] := by
  have hx : extension path = some e := (C55_extension path e).mpr ⟨base, h, hb, he, hd⟩
  have hf : fileName path = some (base ++ 46 :: e) := by
    refine (fileName_iff ..).mpr ⟨h, ?_, ?_, hd⟩
    · intro h; have := congrArg List.length h; cases base <;> simp_all
    · intro h; have := congrArg List.length h; cases base <;> simp_all
  unfold withoutExtension
  simp only [hf, hx]
  obtain ⟨h1, h2, h3⟩ := trimRight_spec path.length path (Nat.le_refl _)
  generalize trimRight path.length path = q at h1 h2 h3 ⊢
  refine ⟨(List.take_prefix _ _).trans h2, ?_⟩
  rw [← h1] at h ⊢
  clear h1 h2 hf hx
  have hlen : 2 ≤ (base ++ 46 :: e).length := by
    cases base with
    | nil => exact absurd rfl hb
    | cons a t => simp; omega
  have hl : ∃ c, (pieces q).getLast? = some c ∧ c ≠ [] ∧ c ≠ [46] := by
    rcases h3 with rfl | rfl | rfl | h3
    · simp [components, pieces] at h
    · have : components [47] = [[47]] := by decide
      rw [this] at h
      have := congrArg (Option.map List.length) h
      simp at this hlen; omega
    · have : components [46] = [[46]] := by decide
      rw [this] at h
      have := congrArg (Option.map List.length) h
      simp at this hlen; omega
    · exact h3
  obtain ⟨c, hc, hc1, hc2⟩ := hl
  obtain ⟨hns, hq⟩ := pieces_last q c hc
  have hceq : c = base ++ 46 :: e := by
    unfold components at h
    have hsplit : pieces q = (pieces q).dropLast ++ [c] := by
      obtain ⟨ys, hy⟩ := List.getLast?_eq_some_iff.mp hc
      rw [hy]; simp
    rw [hsplit, List.filter_append] at h
    have : List.filter (fun p => decide (p ≠ [] ∧ p ≠ [46])) [c] = [c] := by simp [hc1, hc2]
    rw [this, ← List.append_assoc, List.getLast?_append] at h
    simpa using h
  subst hceq
  have hbs : ∀ b ∈ base, b ≠ 47 := fun b hm => hns b (by simp [hm])
  have hpb : ∀ x : Bytes, pieces (x ++ 47 :: base) = pieces x ++ [base] := fun x => pieces_append hbs x
  have hkeep : List.filter (fun p => decide (p ≠ [] ∧ p ≠ [46])) [base] = [base] := by simp [hb, hb']
  have hkeep' : List.filter (fun p => decide (p ≠ [] ∧ p ≠ [46])) [base ++ 46 :: e] = [base ++ 46 :: e] := by
    simp [hc2]
  rcases hq with rfl | ⟨x, rfl⟩
  · have ht : (base ++ 46 :: e).take ((base ++ 46 :: e).length - (e.length + 1)) = base := by simp
    rw [ht]
    unfold components
    rw [pieces_noslash hbs, pieces_noslash hns, hkeep, hkeep']
    cases base with
    | nil => exact absurd rfl hb
    | cons a t =>
      have ha : a ≠ 47 := hbs a List.mem_cons_self
      have hne : (a :: t) ≠ [46] := hb'
      have hne' : (a :: t ++ 46 :: e) ≠ [46] := hc2
      rw [if_neg (by simp [ha]), if_neg (by simpa using hne), if_neg (by simp [ha]), if_neg (by simp)]
      rfl
  · have ht : (x ++ 47 :: (base ++ 46 :: e)).take ((x ++ 47 :: (base ++ 46 :: e)).length - (e.length + 1)) =
        x ++ 47 :: base := by
      have : x ++ 47 :: (base ++ 46 :: e) = (x ++ 47 :: base) ++ 46 :: e := by simp
      rw [this, show ((x ++ 47 :: base) ++ 46 :: e).length - (e.length + 1) = (x ++ 47 :: base).length by
        rw [List.length_append, List.length_cons]; omega, List.take_left']
      rfl
    rw [ht]
    unfold components
    rw [hpb, pieces_append hns, List.filter_append, List.filter_append, hkeep, hkeep']
    have hh : (x ++ 47 :: base).head? = (x ++ 47 :: (base ++ 46 :: e)).head? := by cases x <;> simp
    have hp : (pieces x ++ [base]).head? = (pieces x ++ [base ++ 46 :: e]).head? := by
      cases hx : pieces x with
      | nil => exact absurd hx (pieces_ne_nil x)
      | cons a t => rfl
    rw [hh, hp, ← List.append_assoc, ← List.append_assoc, List.dropLast_concat]

example : withoutExtension (ascii "/lib/modules/a.b.ko.gz") = ascii "/lib/modules/a.b.ko" ∧
    withoutExtension (ascii "/x//m.xz/./") = ascii "/x//m" ∧ withoutExtension (ascii "/x/.gz") = ascii "/x/.gz" ∧
    withoutExtension (ascii "/x/..") = ascii "/x/.." := by decide +kernel

end Blazesym.Util
