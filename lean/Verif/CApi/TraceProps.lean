import Verif.CApi.TraceSpec
import Verif.Util.TextLemmas

/-! Property theorems C78: traces for C programs. -/

set_option autoImplicit false

namespace Blazesym.CApi.Trace
open Blazesym.Spec Blazesym.Spec.Trace

theorem cstr_eq (s : Bytes) : cstr (s ++ [0]) = visible s := by
  unfold visible
  induction s with
  | nil => rfl
  | cons b s ih =>
    rw [List.cons_append, cstr, List.takeWhile_cons, ih]
    by_cases h : b = 0
    · simp [h]
    · simp [h]

theorem split_line (s : Bytes) :
    ((10 : UInt8) ∉ s ∧ readUntil 10 s = (s, [])) ∨
    ∃ a r, s = a ++ 10 :: r ∧ (10 : UInt8) ∉ a ∧ readUntil 10 s = (a ++ [10], r) := by
  induction s with
  | nil => exact Or.inl ⟨by simp, rfl⟩
  | cons b s ih =>
    rw [readUntil]
    by_cases h : b = 10
    · subst h
      exact Or.inr ⟨[], s, rfl, by simp, rfl⟩
    · rw [if_neg h]
      rcases ih with ⟨h1, h2⟩ | ⟨a, r, h1, h2, h3⟩
      · exact Or.inl ⟨by simp [h1, Ne.symm h], by rw [h2]⟩
      · exact Or.inr ⟨b :: a, r, by rw [h1]; rfl, by simp [h2, Ne.symm h], by rw [h3]; rfl⟩

theorem no_newline {a : Bytes} (h : (10 : UInt8) ∉ a) : ∀ b ∈ a, (b == 10) = false := by
  intro b hb
  simp only [beq_eq_false_iff_ne, ne_eq]
  rintro rfl
  exact h hb

theorem complete_none {a : Bytes} (h : (10 : UInt8) ∉ a) : completeLines a = [] ∧ incomplete a = a := by
  unfold completeLines incomplete
  rw [Util.fields_none (no_newline h)]
  exact ⟨rfl, rfl⟩

theorem complete_line {a : Bytes} (h : (10 : UInt8) ∉ a) (r : Bytes) :
    completeLines (a ++ 10 :: r) = (a ++ [10]) :: completeLines r ∧ incomplete (a ++ 10 :: r) = incomplete r := by
  unfold completeLines incomplete
  rw [Util.fields_sep (no_newline h) (by decide)]
  have hne := Util.fields_ne_nil (· == 10) r
  constructor
  · rw [List.dropLast_cons_of_ne_nil hne]
    rfl
  · rw [List.getLast?_cons_of_ne_nil hne]

/-- What is left has no newline. -/
theorem incomplete_plain (fuel : Nat) (s : Bytes) (hf : s.length < fuel) : (10 : UInt8) ∉ incomplete s := by
  induction fuel generalizing s with
  | zero => omega
  | succ fuel ih =>
    rcases split_line s with ⟨h1, -⟩ | ⟨a, r, rfl, h2, -⟩
    · rw [(complete_none h1).2]; exact h1
    · rw [(complete_line h2 r).2]
      exact ih r (by simp only [List.length_append, List.length_cons] at hf; omega)

/-- Lines of a text of which a part is given first. -/
theorem complete_append (fuel : Nat) (x y : Bytes) (hf : x.length < fuel) :
    completeLines (x ++ y) = completeLines x ++ completeLines (incomplete x ++ y) ∧
    incomplete (x ++ y) = incomplete (incomplete x ++ y) := by
  induction fuel generalizing x with
  | zero => omega
  | succ fuel ih =>
    rcases split_line x with ⟨h1, -⟩ | ⟨a, r, rfl, h2, -⟩
    · rw [(complete_none h1).1, (complete_none h1).2]
      exact ⟨rfl, rfl⟩
    · obtain ⟨h3, h4⟩ := ih r (by simp only [List.length_append, List.length_cons] at hf; omega)
      rw [List.append_assoc, List.cons_append, (complete_line h2 (r ++ y)).1, (complete_line h2 (r ++ y)).2,
        (complete_line h2 r).1, (complete_line h2 r).2, h3, h4]
      exact ⟨rfl, rfl⟩

theorem writeLoop_spec (fuel : Nat) (buf input : Bytes) (hb : (10 : UInt8) ∉ buf) (hf : input.length < fuel) :
    writeLoop fuel buf input =
      (input.length, incomplete (buf ++ input), (completeLines (buf ++ input)).map visible) := by
  induction fuel generalizing buf input with
  | zero => omega
  | succ fuel ih =>
    rw [writeLoop]
    rcases split_line input with ⟨h1, h2⟩ | ⟨a, r, rfl, h2, h3⟩
    · rw [h2]
      have h3 : (10 : UInt8) ∉ buf ++ input := by simp [hb, h1]
      rw [(complete_none h3).1, (complete_none h3).2]
      cases input with
      | nil => simp
      | cons b t =>
        have hl : (buf ++ b :: t).getLast? ≠ some 10 := by
          intro hl
          exact h3 (List.mem_of_getLast? hl)
        simp only
        rw [if_neg hl]
        rfl
    · rw [h3]
      have h4 : (10 : UInt8) ∉ buf ++ a := by simp [hb, h2]
      have hne : a ++ [10] ≠ [] := by simp
      cases hc : a ++ [10] with
      | nil => exact absurd hc hne
      | cons b t =>
        simp only
        rw [← hc, if_pos (by simp)]
        simp only [List.length_append, List.length_cons] at hf
        rw [ih [] r (by simp) (by omega)]
        simp only [List.nil_append]
        have e1 : buf ++ (a ++ 10 :: r) = buf ++ a ++ 10 :: r := (List.append_assoc _ _ _).symm
        have e2 : buf ++ (a ++ [10]) = buf ++ a ++ [10] := (List.append_assoc _ _ _).symm
        rw [e1, e2, (complete_line h4 r).1, (complete_line h4 r).2, cstr_eq]
        simp only [List.map_cons, List.length_append, List.length_cons, List.length_nil]
        refine Prod.ext ?_ rfl
        simp only
        omega

theorem write_spec (buf input : Bytes) (hb : (10 : UInt8) ∉ buf) :
    write buf input = (input.length, incomplete (buf ++ input), (completeLines (buf ++ input)).map visible) :=
  writeLoop_spec _ buf input hb (Nat.lt_succ_self _)

theorem writeAll_spec (fuel : Nat) (buf input : Bytes) (hb : (10 : UInt8) ∉ buf) (hf : 0 < fuel) :
    writeAll (fuel + 1) buf input = (incomplete (buf ++ input), (completeLines (buf ++ input)).map visible) := by
  rw [writeAll]
  by_cases h : input = []
  · rw [if_pos h, h, List.append_nil, (complete_none hb).1, (complete_none hb).2]
    rfl
  · rw [if_neg h, write_spec buf input hb]
    simp only
    rw [List.drop_length]
    cases fuel with
    | zero => omega
    | succ fuel => simp [writeAll]

theorem writes_spec (buf : Bytes) (parts : List Bytes) (hb : (10 : UInt8) ∉ buf) :
    writes buf parts = (incomplete (buf ++ parts.flatten), (completeLines (buf ++ parts.flatten)).map visible) := by
  induction parts generalizing buf with
  | nil => simp [writes, (complete_none hb).1, (complete_none hb).2]
  | cons s parts ih =>
    rw [writes]
    by_cases h : s = []
    · subst h
      simp only [List.length_nil, Nat.zero_add, writeAll, if_true]
      rw [ih buf hb]
      simp
    · have hpos : 0 < s.length := List.length_pos_iff.mpr h
      rw [writeAll_spec s.length buf s hb hpos]
      simp only
      rw [ih _ (incomplete_plain _ _ (Nat.lt_succ_self _))]
      obtain ⟨h1, h2⟩ := complete_append _ (buf ++ s) parts.flatten (Nat.lt_succ_self _)
      rw [List.append_assoc] at h1 h2
      simp only [List.flatten_cons]
      rw [h1, h2]
      simp

/-- **C78** However the text of an event is divided into writes: the callback is called once for every line that
is complete, in order, with what a C program can see of it, and every write takes all it is given. -/
theorem C78_lines (parts : List Bytes) :
    (writes [] parts).2 = (completeLines parts.flatten).map visible ∧
    ∀ before s after, parts = before ++ s :: after → (write (writes [] before).1 s).1 = s.length := by
  refine ⟨?_, ?_⟩
  · rw [writes_spec [] parts (by simp)]
    simp
  · intro before s after _
    rw [writes_spec [] before (by simp), write_spec _ _ (incomplete_plain _ _ (Nat.lt_succ_self _))]

/-- **C78** In particular all ways to divide a text give the same. -/
theorem C78_division (parts parts' : List Bytes) (h : parts.flatten = parts'.flatten) :
    (writes [] parts).2 = (writes [] parts').2 := by
  rw [(C78_lines parts).1, (C78_lines parts').1, h]

theorem reports_iff (lvl : UInt8) (level : Level) :
    Reports lvl level ↔ level.verbosity ≤ (levelFilter lvl).verbosity := by
  unfold levelFilter
  have hb : ∀ n : UInt8, n = 0 ∨ n = 1 ∨ n = 2 ∨ n = 3 ∨ 3 < n := by
    intro n
    have h : ∀ a b : UInt8, (a = b ↔ a.toNat = b.toNat) := fun a b => UInt8.toNat_inj.symm
    simp only [h, UInt8.lt_iff_toNat_lt]
    have h0 : (0 : UInt8).toNat = 0 := rfl
    have h1 : (1 : UInt8).toNat = 1 := rfl
    have h2 : (2 : UInt8).toNat = 2 := rfl
    have h3 : (3 : UInt8).toNat = 3 := rfl
    omega
  have key : Reports lvl level ↔ match level with
      | .error | .warn => True
      | .info => lvl ≠ 3
      | .debug => lvl ≠ 3 ∧ lvl ≠ 2
      | .trace => lvl = 0 ∨ 3 < lvl := by
    constructor
    · intro h; cases h <;> simp_all
    · intro h
      cases level with
      | error => exact .error lvl
      | warn => exact .warn lvl
      | info => exact .info lvl h
      | debug => exact .debug lvl h.1 h.2
      | trace => exact .trace lvl h
  rw [key]
  rcases hb lvl with rfl | rfl | rfl | rfl | h
  · cases level <;> decide
  · cases level <;> decide
  · cases level <;> decide
  · cases level <;> decide
  · have h0 : lvl ≠ 0 := by rintro rfl; exact absurd h (by decide)
    have h1 : lvl ≠ 1 := by rintro rfl; exact absurd h (by decide)
    have h2 : lvl ≠ 2 := by rintro rfl; exact absurd h (by decide)
    have h3 : lvl ≠ 3 := by rintro rfl; exact absurd h (by decide)
    simp only [h0, h1, h2, h3, if_false]
    cases level <;> simp [Level.verbosity, h, h2, h3]

theorem traced_run (lvl : UInt8) (cb : Nat) (ops : List Op) :
    Traced lvl cb ops (run (some (levelFilter lvl, cb)) ops) := by
  induction ops with
  | nil => exact .nil
  | cons op ops ih =>
    cases op with
    | trace lvl' cb' => exact .again lvl' cb' ops _ ih
    | event level parts =>
      rw [run, event]
      by_cases h : level.verbosity ≤ (levelFilter lvl).verbosity
      · rw [if_pos h, (C78_lines parts).1, List.map_map]
        exact .reported level parts ops _ ((reports_iff lvl level).mpr h) ih
      · rw [if_neg h]
        exact .ignored level parts ops _ (fun hr => h ((reports_iff lvl level).mp hr)) ih

/-- **C78** In every program: before tracing is requested nothing is reported; the first request succeeds, and
from then on its callback gets the lines of all events of its levels; later requests are refused and change
nothing. -/
theorem C78_program (before : List (Level × List Bytes)) (lvl : UInt8) (cb : Nat) (after : List Op) :
    ∃ seen, run none (before.map (fun e => .event e.1 e.2) ++ .trace lvl cb :: after) = .code 0 :: seen ∧
      Traced lvl cb after seen := by
  refine ⟨run (some (levelFilter lvl, cb)) after, ?_, traced_run lvl cb after⟩
  induction before with
  | nil => rfl
  | cons e before ih =>
    rw [List.map_cons, List.cons_append, run, ih]
    rfl

/-- `Traced` determines what is seen. -/
theorem C78_determined (lvl : UInt8) (cb : Nat) (ops : List Op) (seen seen' : List Seen) (h : Traced lvl cb ops seen)
    (h' : Traced lvl cb ops seen') : seen = seen' := by
  induction h generalizing seen' with
  | nil => cases h'; rfl
  | again lvl' cb' ops seen _ ih => cases h' with | again _ _ _ s h => rw [ih _ h]
  | reported level parts ops seen hl _ ih =>
    cases h' with
    | reported _ _ _ s _ h => rw [ih _ h]
    | ignored _ _ _ _ hn _ => exact absurd hl hn
  | ignored level parts ops seen hl _ ih =>
    cases h' with
    | reported _ _ _ s hy h => exact absurd hy hl
    | ignored _ _ _ _ _ h => exact ih _ h

/-- A program that traces, with a line in two writes, two lines in one write, a NUL and a rest. -/
example :
    run none [.event .error [ascii "lost\n"], .trace 2 7, .event .info [ascii "a", ascii "b\nc\nd", [0, 101, 10, 102]],
      .event .debug [ascii "x\n"], .trace 0 8, .event .warn [ascii "w\n"]] =
    [.code 0, .line 7 (ascii "ab\n"), .line 7 (ascii "c\n"), .line 7 (ascii "d"), .code (-17), .line 7 (ascii "w\n")] := by
  decide

end Blazesym.CApi.Trace
