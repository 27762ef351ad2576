import Verif.CApi.Trace

/-!
# Model of the traces of the command line tool (`cli/src/trace.rs`)

What is captured in fields, and times, are texts already.  Writing to standard error never fails.  The writer of
the `bufio` library takes what still fits into its buffer; when nothing fits, that is an error (`WriteZero`)
that the macro at `cli/src/trace.rs:45-54` ignores.
-/

set_option autoImplicit false

namespace Blazesym.Cli.Trace
open Blazesym.CApi.Trace (Level)

/-- The buffer of `cli/src/trace.rs:300`. -/
def capacity : Nat := 256

/-- `write!` into the buffer (`cli/src/trace.rs:45-54`): what does not fit is dropped. -/
def put (buf s : Bytes) : Bytes := buf ++ s.take (capacity - buf.length)

/-- A sequence of them. -/
def puts (buf : Bytes) : List Bytes → Bytes
  | [] => buf
  | s :: rest => puts (put buf s) rest

/-- A span: the names of the spans around it, outermost first, its own one at the end, and its level. -/
structure Span where
  outer : List Bytes
  name : Bytes
  level : Level

/-- A field and its value. -/
structure Field where
  name : Bytes
  value : Bytes

/-- `cli/src/trace.rs:123-135` (`record_value`): what is written for a field. -/
def recordValue (f : Field) : List Bytes :=
  if f.name = ascii "message" then [ascii " ", f.value] else [ascii " ", f.name, ascii "=", f.value]

/-- `cli/src/trace.rs:236-251` (`write_names`). -/
def writeNames : List Bytes → Bytes → List Bytes
  | [], name => [name]
  | first :: outer, name => first :: ((outer ++ [name]).map fun n => [ascii ":", n]).flatten

/-- `cli/src/trace.rs:31-42, 273-277`: what is written for a level. -/
def levelText : Level → Bytes
  | .trace => ascii " " ++ [27] ++ ascii "[35mTRACE" ++ [27] ++ ascii "[0m"
  | .debug => ascii "  " ++ [27] ++ ascii "[34mINFO" ++ [27] ++ ascii "[0m"
  | .info => ascii "  " ++ [27] ++ ascii "[32mINFO" ++ [27] ++ ascii "[0m"
  | .warn => ascii "  " ++ [27] ++ ascii "[33mWARN" ++ [27] ++ ascii "[0m"
  | .error => ascii " " ++ [27] ++ ascii "[31mERROR" ++ [27] ++ ascii "[0m"

/-- `cli/src/trace.rs:253-287` (`write_impl`). -/
def writeImpl (time : Bytes) (level : Option Level) (span : Option Span) (body : List Bytes) : List Bytes :=
  [time] ++
  [levelText (match level with
    | some level => level
    | none =>
      match span with
      | some span => span.level
      | none => .info)] ++
  (match span with
    | some span =>
      [ascii " " ++ [27] ++ ascii "[1m"] ++ writeNames span.outer span.name ++ [[27] ++ ascii "[0m:"]
    | none => []) ++
  body

/-- `cli/src/trace.rs:289-310` (`write_args`): what is written to standard error. -/
def writeArgs (time : Bytes) (span : Option Span) (level : Option Level) (body : List Bytes) : Bytes :=
  puts [] (writeImpl time level span body) ++ [10]

/-- What is traced. -/
inductive Happens where
  | newSpan (span : Span) (fields : List Field)
  | enter (span : Span)
  | exit (span : Span)
  /-- An event, and the span it is in. -/
  | event (level : Level) (span : Option Span) (fields : List Field)

/-- The level of what happens. -/
def Happens.level : Happens → Level
  | .newSpan span _ | .enter span | .exit span => span.level
  | .event level _ _ => level

/-- `cli/src/main.rs:346-351`: the level, by the number of times `-v` is given. -/
def verbosityLevel (count : Nat) : Level :=
  if count = 0 then .warn else if count = 1 then .info else if count = 2 then .debug else .trace

/-- `cli/src/trace.rs:320-370` (`enabled`, `on_new_span`, `on_event`, `on_enter`, `on_exit`): what is written. -/
def trace (verbosity : Level) (time : Bytes) (h : Happens) : Bytes :=
  if h.level.verbosity ≤ verbosity.verbosity then
    match h with
    | .newSpan span fields => writeArgs time (some span) none ([ascii " new"] ++ (fields.map recordValue).flatten)
    | .enter span => writeArgs time (some span) none [ascii " enter"]
    | .exit span => writeArgs time (some span) none [ascii " exit"]
    | .event level span fields => writeArgs time span (some level) (fields.map recordValue).flatten
  else []

/-- All that is written: times and what happens. -/
def traces (verbosity : Level) : List (Bytes × Happens) → Bytes
  | [] => []
  | (time, h) :: rest => trace verbosity time h ++ traces verbosity rest

end Blazesym.Cli.Trace
