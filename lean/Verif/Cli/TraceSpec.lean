import Verif.Cli.Trace
import Verif.Cli.ReadSpec

/-! # The traces that are expected of the command line tool -/

set_option autoImplicit false

namespace Blazesym.Spec.Cli
open Blazesym.CApi.Trace (Level)
open Blazesym.Cli.Trace (Span Field Happens)

/-- Text in a colour (or bold), for terminals. -/
def coloured (code text : Bytes) : Bytes := [27] ++ ascii "[" ++ code ++ ascii "m" ++ text ++ [27] ++ ascii "[0m"

/-- A level, in five columns. -/
def levelWord : Level → Bytes
  | .trace => coloured (ascii "35") (ascii "TRACE")
  | .debug => coloured (ascii "34") (ascii "DEBUG")
  | .info => ascii " " ++ coloured (ascii "32") (ascii "INFO")
  | .warn => ascii " " ++ coloured (ascii "33") (ascii "WARN")
  | .error => coloured (ascii "31") (ascii "ERROR")

/-- Names with colons between them. -/
def joined : List Bytes → Bytes
  | [] => []
  | [n] => n
  | n :: rest => n ++ ascii ":" ++ joined rest

/-- A field: `name=value`, but only the value for a message. -/
def fieldText (f : Field) : Bytes :=
  ascii " " ++ (if f.name = ascii "message" then [] else f.name ++ ascii "=") ++ f.value

/-- The path of a span. -/
def spanText (s : Span) : Bytes := ascii " " ++ coloured (ascii "1") (joined (s.outer ++ [s.name])) ++ ascii ":"

/-- What is to be written, with a word for the level. -/
def traceText (time level : Bytes) : Happens → Bytes
  | .newSpan span fields => time ++ ascii " " ++ level ++ spanText span ++ ascii " new" ++ (fields.map fieldText).flatten
  | .enter span => time ++ ascii " " ++ level ++ spanText span ++ ascii " enter"
  | .exit span => time ++ ascii " " ++ level ++ spanText span ++ ascii " exit"
  | .event _ (some span) fields => time ++ ascii " " ++ level ++ spanText span ++ (fields.map fieldText).flatten
  | .event _ none fields => time ++ ascii " " ++ level ++ (fields.map fieldText).flatten

/-- What is reported, by the number of times `-v` is given. -/
inductive ReportsV : Nat → Level → Prop where
  | error (n : Nat) : ReportsV n .error
  | warn (n : Nat) : ReportsV n .warn
  | info (n : Nat) (h : 1 ≤ n) : ReportsV n .info
  | debug (n : Nat) (h : 2 ≤ n) : ReportsV n .debug
  | trace (n : Nat) (h : 3 ≤ n) : ReportsV n .trace

/-- Lines for what happens: those that are reported, each at most 256 bytes long. -/
inductive TraceLines (n : Nat) : List (Bytes × Happens) → List Bytes → Prop where
  | nil : TraceLines n [] []
  | reported (time : Bytes) (h : Happens) (rest : List (Bytes × Happens)) (ls : List Bytes) (hl : ReportsV n h.level)
      (hr : TraceLines n rest ls) :
      TraceLines n ((time, h) :: rest) ((traceText time (levelWord h.level) h).take 256 :: ls)
  | ignored (time : Bytes) (h : Happens) (rest : List (Bytes × Happens)) (ls : List Bytes) (hl : ¬ ReportsV n h.level)
      (hr : TraceLines n rest ls) : TraceLines n ((time, h) :: rest) ls

/-- The path of a span has no newline. -/
def PlainSpan (s : Span) : Prop := (∀ n ∈ s.outer, (10 : UInt8) ∉ n) ∧ (10 : UInt8) ∉ s.name

/-- The fields have no newlines. -/
def PlainFields (fs : List Field) : Prop := ∀ f ∈ fs, (10 : UInt8) ∉ f.name ∧ (10 : UInt8) ∉ f.value

/-- There are no newlines. -/
def PlainHappens : Happens → Prop
  | .newSpan span fields => PlainSpan span ∧ PlainFields fields
  | .enter span => PlainSpan span
  | .exit span => PlainSpan span
  | .event _ (some span) fields => PlainSpan span ∧ PlainFields fields
  | .event _ none fields => PlainFields fields

end Blazesym.Spec.Cli
