import Verif.Cli.TraceSpec
import Verif.Cli.ReadLemmas

/-! Property theorems C78: traces of the command line tool. -/

set_option autoImplicit false

namespace Blazesym.Cli.Trace
open Blazesym.Spec.Cli Blazesym.Cli
open Blazesym.CApi.Trace (Level)

theorem puts_spec (parts : List Bytes) (buf : Bytes) (h : buf.length ≤ 256) :
    puts buf parts = (buf ++ parts.flatten).take 256 := by
  induction parts generalizing buf with
  | nil => simp only [puts, List.flatten_nil, List.append_nil]; rw [List.take_of_length_le h]
  | cons s parts ih =>
    rw [puts, ih]
    · unfold put capacity
      simp only [List.flatten_cons]
      rw [List.append_assoc, List.take_append, List.take_of_length_le h, List.take_append, List.take_take,
        Nat.min_self, List.take_append, List.take_of_length_le h, List.take_append]
      congr 1
      by_cases hs : s.length ≤ 256 - buf.length
      · rw [List.take_of_length_le hs]
      · have h1 : 256 - buf.length - (s.take (256 - buf.length)).length = 0 := by
          rw [List.length_take]; omega
        have h2 : 256 - buf.length - s.length = 0 := by omega
        rw [h1, h2]
    · unfold put capacity
      rw [List.length_append, List.length_take]
      omega

theorem recordValue_text (f : Field) : (recordValue f).flatten = fieldText f := by
  unfold recordValue fieldText
  split <;> simp

theorem fields_text (fs : List Field) : ((fs.map recordValue).flatten).flatten = (fs.map fieldText).flatten := by
  induction fs with
  | nil => rfl
  | cons f fs ih =>
    simp only [List.map_cons, List.flatten_cons, List.flatten_append]
    rw [recordValue_text, ih]

theorem names_text (outer : List Bytes) (name : Bytes) :
    (writeNames outer name).flatten = joined (outer ++ [name]) := by
  cases outer with
  | nil => simp [writeNames, joined]
  | cons first outer =>
    rw [writeNames]
    induction outer generalizing first with
    | nil => simp [joined]
    | cons n outer ih =>
      rw [List.cons_append, List.cons_append, joined]
      · rw [← List.cons_append, ← ih n]
        simp
      · simp

/-- The word for a level that is written. -/
def writtenWord (level : Level) : Bytes :=
  match level with
  | .debug => ascii " " ++ coloured (ascii "34") (ascii "INFO")
  | level => levelWord level

theorem levelText_eq (level : Level) : levelText level = ascii " " ++ writtenWord level := by
  cases level <;> decide

theorem span_text (s : Span) :
    ([ascii " " ++ [27] ++ ascii "[1m"] ++ writeNames s.outer s.name ++ [[27] ++ ascii "[0m:"]).flatten = spanText s := by
  rw [List.flatten_append, List.flatten_append, names_text]
  unfold spanText coloured
  simp only [List.flatten_cons, List.flatten_nil, List.append_nil]
  have h1 : ascii " " ++ [27] ++ ascii "[1m" = ascii " " ++ ([27] ++ ascii "[" ++ ascii "1" ++ ascii "m") := by decide
  have h2 : [27] ++ ascii "[0m:" = [27] ++ ascii "[0m" ++ ascii ":" := by decide
  rw [h1, h2]
  simp only [List.append_assoc]

theorem trace_text (verbosity : Level) (time : Bytes) (h : Happens)
    (hl : h.level.verbosity ≤ verbosity.verbosity) :
    trace verbosity time h = (traceText time (writtenWord h.level) h).take 256 ++ [10] := by
  have key : ∀ span level body, writeArgs time span level body =
      ((writeImpl time level span body).flatten).take 256 ++ [10] := by
    intro span level body
    unfold writeArgs
    rw [puts_spec _ [] (by simp), List.nil_append]
  unfold trace
  rw [if_pos hl]
  cases h with
  | newSpan span fields =>
    simp only [key]
    congr 2
    unfold writeImpl traceText
    simp only [List.flatten_append]
    rw [fields_text, ← span_text]
    simp [levelText_eq, Happens.level]
  | enter span =>
    simp only [key]
    congr 2
    unfold writeImpl traceText
    simp only [List.flatten_append]
    rw [← span_text]
    simp [levelText_eq, Happens.level]
  | exit span =>
    simp only [key]
    congr 2
    unfold writeImpl traceText
    simp only [List.flatten_append]
    rw [← span_text]
    simp [levelText_eq, Happens.level]
  | event level span fields =>
    simp only [key]
    congr 2
    unfold writeImpl
    cases span with
    | none =>
      simp only [List.flatten_append, traceText]
      rw [fields_text]
      simp [levelText_eq, Happens.level]
    | some span =>
      simp only [List.flatten_append, traceText]
      rw [fields_text, ← span_text]
      simp [levelText_eq, Happens.level]

theorem reportsV_iff (n : Nat) (level : Level) :
    ReportsV n level ↔ level.verbosity ≤ (verbosityLevel n).verbosity := by
  have key : ReportsV n level ↔ match level with
      | .error | .warn => True
      | .info => 1 ≤ n
      | .debug => 2 ≤ n
      | .trace => 3 ≤ n := by
    constructor
    · intro h; cases h <;> simp_all
    · intro h
      cases level with
      | error => exact .error n
      | warn => exact .warn n
      | info => exact .info n h
      | debug => exact .debug n h
      | trace => exact .trace n h
  rw [key]
  unfold verbosityLevel
  by_cases h0 : n = 0
  · subst h0; cases level <;> decide
  · by_cases h1 : n = 1
    · subst h1; cases level <;> decide
    · by_cases h2 : n = 2
      · subst h2; cases level <;> decide
      · rw [if_neg h0, if_neg h1, if_neg h2]
        cases level <;> simp [CApi.Trace.Level.verbosity] <;> omega

theorem joined_plain (l : List Bytes) (h : ∀ n ∈ l, (10 : UInt8) ∉ n) : (10 : UInt8) ∉ joined l := by
  induction l with
  | nil => simp [joined]
  | cons n rest ih =>
    cases rest with
    | nil => simpa [joined] using h n (by simp)
    | cons m rest =>
      rw [joined]
      · simp only [List.mem_append, not_or]
        exact ⟨⟨h n (by simp), by decide⟩, ih fun x hx => h x (List.mem_cons_of_mem _ hx)⟩
      · simp

theorem span_plain {s : Span} (h : PlainSpan s) : (10 : UInt8) ∉ spanText s := by
  have hj := joined_plain (s.outer ++ [s.name]) (by
    intro n hn
    rcases List.mem_append.mp hn with hn | hn
    · exact h.1 n hn
    · rw [List.mem_singleton.mp hn]; exact h.2)
  unfold spanText coloured
  simp only [List.mem_append, not_or]
  refine ⟨⟨by decide, ?_⟩, by decide⟩
  exact ⟨⟨⟨⟨⟨⟨by decide, by decide⟩, by decide⟩, by decide⟩, hj⟩, by decide⟩, by decide⟩

theorem fields_plain {fs : List Field} (h : PlainFields fs) : (10 : UInt8) ∉ (fs.map fieldText).flatten := by
  intro hm
  obtain ⟨t, ht, hm⟩ := List.mem_flatten.mp hm
  obtain ⟨f, hf, rfl⟩ := List.mem_map.mp ht
  obtain ⟨h1, h2⟩ := h f hf
  unfold fieldText at hm
  simp only [List.mem_append] at hm
  rcases hm with (hm | hm) | hm
  · exact absurd hm (by decide)
  · split at hm
    · cases hm
    · rcases List.mem_append.mp hm with hm | hm
      · exact h1 hm
      · exact absurd hm (by decide)
  · exact h2 hm

theorem text_plain {time : Bytes} (ht : (10 : UInt8) ∉ time) {word : Bytes} (hw : (10 : UInt8) ∉ word) {h : Happens}
    (hp : PlainHappens h) : (10 : UInt8) ∉ traceText time word h := by
  cases h with
  | newSpan span fields =>
    unfold traceText
    simp only [List.mem_append, not_or]
    exact ⟨⟨⟨⟨⟨ht, by decide⟩, hw⟩, span_plain hp.1⟩, by decide⟩, fields_plain hp.2⟩
  | enter span =>
    unfold traceText
    simp only [List.mem_append, not_or]
    exact ⟨⟨⟨⟨ht, by decide⟩, hw⟩, span_plain hp⟩, by decide⟩
  | exit span =>
    unfold traceText
    simp only [List.mem_append, not_or]
    exact ⟨⟨⟨⟨ht, by decide⟩, hw⟩, span_plain hp⟩, by decide⟩
  | event level span fields =>
    cases span with
    | none =>
      unfold traceText
      simp only [List.mem_append, not_or]
      exact ⟨⟨⟨ht, by decide⟩, hw⟩, fields_plain hp⟩
    | some span =>
      unfold traceText
      simp only [List.mem_append, not_or]
      exact ⟨⟨⟨⟨ht, by decide⟩, hw⟩, span_plain hp.1⟩, fields_plain hp.2⟩

theorem word_plain (level : Level) : (10 : UInt8) ∉ levelWord level := by cases level <;> decide

/-- **C78** What the tool traces: one line of at most 256 bytes for all that happens at the levels that are asked
for, in order, with the time, the level, the spans around it and the fields.

Partial: what is at level `DEBUG` is left out, see `C78_debug_wrong`. -/
theorem C78_cli_partial (n : Nat) (l : List (Bytes × Happens)) (hd : ∀ x ∈ l, x.2.level ≠ .debug)
    (hp : ∀ x ∈ l, (10 : UInt8) ∉ x.1 ∧ PlainHappens x.2) :
    ∃ ls, textLines (traces (verbosityLevel n) l) = some ls ∧ TraceLines n l ls := by
  have : ∃ ls : List Bytes, traces (verbosityLevel n) l = (ls.map println).flatten ∧ (∀ s ∈ ls, (10 : UInt8) ∉ s) ∧
      TraceLines n l ls := by
    induction l with
    | nil => exact ⟨[], rfl, by simp, .nil⟩
    | cons x l ih =>
      obtain ⟨ls, h1, h2, h3⟩ := ih (fun x hx => hd x (List.mem_cons_of_mem _ hx))
        (fun x hx => hp x (List.mem_cons_of_mem _ hx))
      obtain ⟨time, h⟩ := x
      obtain ⟨ht, hh⟩ := hp (time, h) (List.mem_cons_self ..)
      have hlev := hd (time, h) (List.mem_cons_self ..)
      rw [traces, h1]
      by_cases hl : h.level.verbosity ≤ (verbosityLevel n).verbosity
      · have hw : writtenWord h.level = levelWord h.level := by
          unfold writtenWord
          split
          · rename_i heq; exact absurd heq hlev
          · rfl
        refine ⟨(traceText time (levelWord h.level) h).take 256 :: ls, ?_, ?_, .reported time h l ls ((reportsV_iff n _).mpr hl) h3⟩
        · rw [trace_text _ time h hl, hw]
          rfl
        · intro s hs
          rcases List.mem_cons.mp hs with rfl | hs
          · intro hm
            exact text_plain ht (word_plain _) hh (List.mem_of_mem_take hm)
          · exact h2 s hs
      · refine ⟨ls, ?_, h2, .ignored time h l ls (fun hr => hl ((reportsV_iff n _).mp hr)) h3⟩
        unfold trace
        rw [if_neg hl, List.nil_append]
  obtain ⟨ls, h1, h2, h3⟩ := this
  exact ⟨ls, by rw [h1, textLines_lines ls h2], h3⟩

/-- **C78** (negative) what is at level `DEBUG` is shown as if it were at level `INFO` (in another colour). -/
theorem C78_debug_wrong (n : Nat) (hn : 2 ≤ n) (time : Bytes) (h : Happens) (hl : h.level = .debug) :
    trace (verbosityLevel n) time h =
      (traceText time (ascii " " ++ coloured (ascii "34") (ascii "INFO")) h).take 256 ++ [10] := by
  rw [trace_text _ time h ((reportsV_iff n _).mp (by rw [hl]; exact .debug n hn)), hl]
  rfl

/-- What is written for a message in two spans, and that it is not written without `-v`. -/
example :
    traces (verbosityLevel 1) [(ascii "T", .event .info (some ⟨[ascii "a"], ascii "b", .warn⟩)
      [⟨ascii "message", ascii "hello"⟩, ⟨ascii "x", ascii "1"⟩])] =
      ascii "T  " ++ [27] ++ ascii "[32mINFO" ++ [27] ++ ascii "[0m " ++ [27] ++ ascii "[1ma:b" ++ [27] ++
        ascii "[0m: hello x=1\n" ∧
    traces (verbosityLevel 0) [(ascii "T", .event .info none [])] = [] := by
  decide

/-- A long line is cut. -/
example : (traces (verbosityLevel 0) [(ascii "T", .event .warn none [⟨ascii "message", List.replicate 300 65⟩])]).length =
    257 := by
  decide +kernel

end Blazesym.Cli.Trace
