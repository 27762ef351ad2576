import Verif.Breakpad.ParseLemmas
import Verif.Breakpad.ErrorSpec

/-! # Lemmas for C24 and C80: where the parsers fail -/

set_option autoImplicit false

namespace Blazesym.Breakpad
open Blazesym.Util Blazesym.Spec Blazesym.Spec.Breakpad

/-! ### Parsers look at ends of their input only -/

/-- What is left, and what errors tell of, is an end of the input; and an error tells of something. -/
def Ends {α : Type} (p : Nom α) : Prop :=
  ∀ i : Bytes, (∀ r a, p i = .ok (r, a) → r <:+ i) ∧
    ∀ e, p i = .error e → e.trail ≠ [] ∧ ∀ x ∈ e.trail, x.1 <:+ i

theorem Ends.bind {α β : Type} {p : Nom α} {f : α → Nom β} (hp : Ends p) (hf : ∀ a, Ends (f a)) :
    Ends (p >>= f) := by
  intro i
  have hb : (p >>= f) i = Nom.bind p f i := rfl
  rw [hb]
  unfold Nom.bind
  cases h : p i with
  | error e =>
    refine ⟨by simp, ?_⟩
    intro e' he
    cases he
    exact (hp i).2 e h
  | ok x =>
    obtain ⟨r, a⟩ := x
    have hr := (hp i).1 r a h
    refine ⟨fun r' b h' => ((hf a r).1 r' b h').trans hr, ?_⟩
    intro e he
    obtain ⟨h1, h2⟩ := (hf a r).2 e he
    exact ⟨h1, fun x hx => (h2 x hx).trans hr⟩

theorem Ends.pure {α : Type} (a : α) : Ends (Pure.pure a : Nom α) := by
  intro i
  have hp : (Pure.pure a : Nom α) i = .ok (i, a) := rfl
  rw [hp]
  refine ⟨?_, by simp⟩
  intro r b h
  simp only [Except.ok.injEq, Prod.mk.injEq] at h
  rw [h.1]
  exact List.suffix_refl _

theorem ends_tag (t : Bytes) : Ends (tag t) := by
  intro i
  unfold tag
  split
  · refine ⟨?_, by simp⟩
    intro r a h
    simp only [Except.ok.injEq, Prod.mk.injEq] at h
    rw [← h.1]
    exact List.drop_suffix _ _
  · refine ⟨by simp, ?_⟩
    intro e he
    cases he
    simp [NErr.trail]

theorem ends_takeWhile (q : UInt8 → Bool) : Ends (takeWhile q) := by
  intro i
  unfold takeWhile
  refine ⟨?_, by simp⟩
  intro r a h
  simp only [Except.ok.injEq, Prod.mk.injEq] at h
  rw [← h.1]
  exact List.dropWhile_suffix _

theorem ends_space1 : Ends space1 := by
  intro i
  unfold space1
  split
  · refine ⟨by simp, ?_⟩
    intro e he
    cases he
    simp [NErr.trail]
  · refine ⟨?_, by simp⟩
    intro r a h
    simp only [Except.ok.injEq, Prod.mk.injEq] at h
    rw [← h.1]
    exact List.dropWhile_suffix _

theorem ends_multispace0 : Ends multispace0 := by
  intro i
  unfold multispace0
  refine ⟨?_, by simp⟩
  intro r a h
  simp only [Except.ok.injEq, Prod.mk.injEq] at h
  rw [← h.1]
  exact List.dropWhile_suffix _

theorem Ends.terminated {α β : Type} {p : Nom α} {q : Nom β} (hp : Ends p) (hq : Ends q) :
    Ends (terminated p q) :=
  hp.bind fun _ => hq.bind fun _ => .pure _

theorem Ends.mapTo {α β : Type} {p : Nom α} (f : α → β) (hp : Ends p) : Ends (mapTo p f) :=
  hp.bind fun _ => .pure _

theorem Ends.cut {α : Type} {p : Nom α} (hp : Ends p) : Ends (cut p) := by
  intro i
  unfold Breakpad.cut
  cases h : p i with
  | error e =>
    refine ⟨by simp, ?_⟩
    intro e' he
    cases he
    exact (hp i).2 e h
  | ok x =>
    refine ⟨?_, by simp⟩
    intro r a h'
    cases h'
    exact (hp i).1 r a h

theorem Ends.opt {α : Type} {p : Nom α} (hp : Ends p) : Ends (opt p) := by
  intro i
  unfold Breakpad.opt
  cases h : p i with
  | error e =>
    cases e with
    | error t =>
      refine ⟨?_, by simp⟩
      intro r a h'
      simp only [Except.ok.injEq, Prod.mk.injEq] at h'
      rw [h'.1]
      exact List.suffix_refl _
    | failure t =>
      refine ⟨by simp, ?_⟩
      intro e' he
      cases he
      exact (hp i).2 _ h
  | ok x =>
    obtain ⟨r, a⟩ := x
    refine ⟨?_, by simp⟩
    intro r' b h'
    simp only [Except.ok.injEq, Prod.mk.injEq] at h'
    rw [← h'.1]
    exact (hp i).1 r a h

theorem Ends.orElse {α : Type} {p q : Nom α} (hp : Ends p) (hq : Ends q) : Ends (orElse p q) := by
  intro i
  unfold Breakpad.orElse
  split
  · exact hq i
  · exact hp i

theorem Ends.alt {α : Type} {p : Nom α} (hp : Ends p) : Ends (alt p) := by
  intro i
  unfold Breakpad.alt
  split
  · rename_i t h
    refine ⟨by simp, ?_⟩
    intro e he
    cases he
    refine ⟨by simp [NErr.trail], ?_⟩
    intro x hx
    simp only [NErr.trail, List.mem_append, List.mem_singleton] at hx
    rcases hx with hx | rfl
    · exact ((hp i).2 _ h).2 x hx
    · exact List.suffix_refl _
  · exact hp i

theorem Ends.utf8 {p : Nom Bytes} (hp : Ends p) : Ends (utf8 p) := by
  intro i
  unfold Breakpad.utf8
  cases h : p i with
  | error e =>
    refine ⟨by simp, ?_⟩
    intro e' he
    cases he
    exact (hp i).2 e h
  | ok x =>
    obtain ⟨r, s⟩ := x
    simp only
    split
    · refine ⟨?_, by simp⟩
      intro r' b h'
      cases h'
      exact (hp i).1 r s h
    · refine ⟨by simp, ?_⟩
      intro e he
      cases he
      simp [NErr.trail]

theorem ends_hexStr (n : Nat) : Ends (hexStr n) := by
  intro i
  unfold hexStr
  simp only
  split
  · refine ⟨by simp, ?_⟩
    intro e he
    cases he
    simp [NErr.trail]
  · refine ⟨?_, by simp⟩
    intro r a h
    simp only [Except.ok.injEq, Prod.mk.injEq] at h
    rw [← h.1]
    exact List.drop_suffix _ _

theorem ends_decimalU32 : Ends decimalU32 := by
  intro i
  unfold decimalU32
  simp only
  split
  · refine ⟨by simp, ?_⟩
    intro e he
    cases he
    simp [NErr.trail]
  · split
    · refine ⟨?_, by simp⟩
      intro r a h
      simp only [Except.ok.injEq, Prod.mk.injEq] at h
      rw [← h.1]
      exact List.drop_suffix _ _
    · refine ⟨by simp, ?_⟩
      intro e he
      cases he
      simp [NErr.trail]

theorem ends_keyword (k : Bytes) : Ends (keyword k) := (ends_tag k).terminated ends_space1

theorem ends_myEol : Ends myEol := (ends_takeWhile _).bind fun _ => ends_tag _

theorem ends_rest : Ends (terminated notMyEol myEol) := (ends_takeWhile _).terminated ends_myEol

theorem ends_nameField : Ends nameField := (Ends.utf8 (ends_takeWhile _)).terminated ends_myEol

theorem ends_number : Ends (terminated decimalU32 space1) := ends_decimalU32.terminated ends_space1

theorem ends_hexNumber (n : Nat) : Ends (terminated (hexStr n) space1) := (ends_hexStr n).terminated ends_space1

theorem ends_word : Ends (terminated nonSpace space1) := (ends_takeWhile _).terminated ends_space1

theorem ends_multiple : Ends (opt (terminated (tag (ascii "m")) space1)) :=
  Ends.opt ((ends_tag _).terminated ends_space1)

theorem ends_line : Ends line := by
  have rest (k : Bytes) : Ends (do keyword k; let _ ← cut (terminated notMyEol myEol) : Nom Unit) :=
    (ends_keyword k).bind fun _ => ends_rest.cut.bind fun _ => .pure _
  have named (k : Bytes) : Ends (do
      keyword k
      cut (do
        let id ← terminated decimalU32 space1
        let name ← nameField
        pure (id, name)) : Nom (Nat × Bytes)) :=
    (ends_keyword k).bind fun _ => (ends_number.bind fun _ => ends_nameField.bind fun _ => .pure _).cut
  have hpub : Ends publicLine :=
    (ends_keyword _).bind fun _ => (ends_multiple.bind fun _ => (ends_hexNumber _).bind fun _ =>
      (ends_hexNumber _).bind fun _ => ends_nameField.bind fun _ => .pure _).cut
  have hfunc : Ends funcLine :=
    (ends_keyword _).bind fun _ => (ends_multiple.bind fun _ => (ends_hexNumber _).bind fun _ =>
      (ends_hexNumber _).bind fun _ => (ends_hexNumber _).bind fun _ =>
      ends_nameField.bind fun _ => .pure _).cut
  have hmod : Ends moduleLine :=
    (ends_keyword _).bind fun _ => (ends_word.bind fun _ => ends_word.bind fun _ =>
      ends_word.bind fun _ => ends_rest).cut
  have hinfo : Ends infoLine := (ends_keyword _).bind fun _ => ends_rest.cut
  exact (Ends.alt (((rest _).mapTo _).orElse ((hinfo.mapTo _).orElse (((named _).mapTo _).orElse
    (((named _).mapTo _).orElse ((hpub.mapTo _).orElse ((hfunc.mapTo _).orElse (((rest _).mapTo _).orElse
    (((rest _).mapTo _).orElse (hmod.mapTo _)))))))))).terminated ends_multispace0

/-! ### Places -/

theorem lineBegin_eq (l : Bytes) :
    lineBegin l = l.length - (l.reverse.takeWhile (fun b => b != 10)).length := by
  let q : UInt8 → Bool := fun b => b == 10
  have key : ∀ l : Bytes, l.findIdx? q = none ∧ (l.takeWhile (fun b => !q b)).length = l.length ∨
      l.findIdx? q = some (l.takeWhile (fun b => !q b)).length := by
    intro l
    induction l with
    | nil => left; simp
    | cons a l ih =>
      rw [List.findIdx?_cons]
      cases hq : q a with
      | true => right; simp [hq]
      | false =>
        rcases ih with ⟨h1, h2⟩ | h1
        · left; simp [h1, hq, h2]
        · right; simp [h1, hq]
  have hq : (fun b : UInt8 => !q b) = fun b => b != 10 := rfl
  rw [hq] at key
  unfold lineBegin
  rcases key l.reverse with ⟨h1, h2⟩ | h1
  · rw [show l.reverse.findIdx? (fun b => b == 10) = none from h1, h2]; simp
  · rw [show l.reverse.findIdx? (fun b => b == 10) = some _ from h1]

theorem placeOf_pointsAt {text rest : Bytes} (k : ErrorKind) (h : rest <:+ text) :
    PointsAt text rest (placeOf text rest k) ∧ (placeOf text rest k).kind = k := by
  obtain ⟨pre, rfl⟩ := h
  refine ⟨?_, rfl⟩
  have ho : (pre ++ rest).length - rest.length = pre.length := by simp
  have hpre : pre = (pre.reverse.dropWhile (fun b => b != 10)).reverse ++
      (pre.reverse.takeWhile (fun b => b != 10)).reverse := by
    rw [← List.reverse_append, List.takeWhile_append_dropWhile, List.reverse_reverse]
  generalize habove : (pre.reverse.dropWhile (fun b => b != 10)).reverse = above at hpre
  generalize hbefore : (pre.reverse.takeWhile (fun b => b != 10)).reverse = before at hpre
  have hb10 : 10 ∉ before := by
    rw [← hbefore]
    intro hm
    rw [List.mem_reverse] at hm
    have := List.all_eq_true.mp (List.all_takeWhile (p := fun b : UInt8 => b != 10) (l := pre.reverse)) 10 hm
    simp at this
  have hlast : above = [] ∨ above.getLast? = some 10 := by
    by_cases h0 : above = []
    · exact Or.inl h0
    · right
      rw [← habove, List.getLast?_reverse]
      have h1 := List.head?_dropWhile_not (fun b : UInt8 => b != 10) pre.reverse
      cases hh : (pre.reverse.dropWhile (fun b => b != 10)).head? with
      | none =>
        rw [List.head?_eq_none_iff] at hh
        rw [hh] at habove
        exact absurd habove.symm h0
      | some c =>
        rw [hh] at h1
        simp at h1
        rw [h1]
  have hbl : (pre.reverse.takeWhile (fun b => b != 10)).length = before.length := by
    rw [← hbefore, List.length_reverse]
  have hbegin : lineBegin pre = above.length := by
    rw [lineBegin_eq, hbl]
    have := congrArg List.length hpre
    simp at this
    omega
  have hplace : placeOf (pre ++ rest) rest k =
      { line := pre.countP (fun b => b == 10) + 1
        text := (before ++ rest).takeWhile (fun b => b != 10)
        column := before.length + 1
        kind := k } := by
    unfold placeOf
    simp only [ho, List.take_left']
    rw [hbegin]
    have hd : (pre ++ rest).drop above.length = before ++ rest := by
      rw [hpre, List.append_assoc, List.drop_left']
      rfl
    have hl := congrArg List.length hpre
    simp at hl
    rw [hd]
    congr 1
    omega
  refine ⟨above, before, (before ++ rest).dropWhile (fun b => b != 10), by rw [← hpre], hlast, hb10, ?_, ?_,
    ?_, ?_, ?_⟩
  · rw [hplace]
    simp only
    have : pre.countP (fun b => b == 10) = pre.count 10 := rfl
    rw [this, hpre, List.count_append, List.count_eq_zero.mpr hb10]
  · rw [hplace]
  · rw [hplace]
    simp only
    rw [List.takeWhile_append_dropWhile]
  · rw [hplace]
    simp only
    intro hm
    have := List.all_eq_true.mp (List.all_takeWhile (p := fun b : UInt8 => b != 10) (l := before ++ rest)) 10 hm
    simp at this
  · have h1 := List.head?_dropWhile_not (fun b : UInt8 => b != 10) (before ++ rest)
    cases hh : ((before ++ rest).dropWhile (fun b => b != 10)).head? with
    | none => left; exact List.head?_eq_none_iff.mp hh
    | some c =>
      rw [hh] at h1
      simp at h1
      right; rw [h1]

/-- The message has a place for every parser that failed, or there is a column that is too large. -/
theorem stringify_spec (input : Bytes) (trail : Trail) :
    (stringifyError input trail = .ok (trail.map fun x => placeOf input x.1 x.2) ∧
      ∀ x ∈ trail, (placeOf input x.1 x.2).column < 65536) ∨
    (stringifyError input trail = .error .panic ∧
      ∃ x ∈ trail, 65536 ≤ (placeOf input x.1 x.2).column) := by
  induction trail with
  | nil => left; exact ⟨rfl, by simp⟩
  | cons x l ih =>
    obtain ⟨s, k⟩ := x
    unfold stringifyError
    simp only
    split
    · rename_i hc
      rcases ih with ⟨h1, h2⟩ | ⟨h1, x, h2, h3⟩
      · left
        rw [h1]
        refine ⟨rfl, ?_⟩
        intro x hx
        rcases List.mem_cons.mp hx with rfl | hx
        · exact hc
        · exact h2 x hx
      · right
        rw [h1]
        refine ⟨rfl, x, by simp [h2], h3⟩
    · rename_i hc
      right
      exact ⟨rfl, (s, k), by simp, by simpa using hc⟩

theorem short_column {t rest : Bytes} {p : Place} (h : ∃ a b, t = a ++ rest ++ b) {s : Bytes} (hs : ShortLines t)
    (hp : PointsAt rest s p) : p.column < 65536 := by
  obtain ⟨a, b, rfl⟩ := h
  obtain ⟨above, before, after, rfl, _, h10, _, hcol, _⟩ := hp
  have := hs (a ++ above) before (s ++ b) (by simp) h10
  omega

end Blazesym.Breakpad
