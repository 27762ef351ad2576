import Verif.Basic
import Verif.CApi.Codes

/-!
# Model of tracing for C programs (`capi/src/trace.rs`)

How the `tracing` libraries turn an event into text is not modelled: an event comes with the writes its text
is divided into.  They report an event if its level is not above that of the installed subscriber.
-/

set_option autoImplicit false

namespace Blazesym.CApi.Trace

/-- The level of an event or a filter (`tracing::Level`). -/
inductive Level where
  | trace
  | debug
  | info
  | warn
  | error
  deriving DecidableEq

/-- The order of levels (`tracing::Level`): the more verbose ones are greater. -/
def Level.verbosity : Level → Nat
  | .error => 1
  | .warn => 2
  | .info => 3
  | .debug => 4
  | .trace => 5

/-- `capi/src/trace.rs:44-54` (`From<blaze_trace_lvl> for LevelFilter`). -/
def levelFilter (lvl : UInt8) : Level :=
  if lvl = 3 then .warn
  else if lvl = 2 then .info
  else if lvl = 1 then .debug
  else if lvl = 0 then .trace
  else .trace

/-- `BufRead::read_until` (standard library) on a `Cursor`: what is read, and what is left. -/
def readUntil (delim : UInt8) : Bytes → Bytes × Bytes
  | [] => ([], [])
  | b :: t =>
    if b = delim then ([b], t)
    else
      match readUntil delim t with
      | (c, rest) => (b :: c, rest)

/-- `CStr::from_ptr` (standard library): what is before the first NUL. -/
def cstr : Bytes → Bytes
  | [] => []
  | b :: t => if b = 0 then [] else b :: cstr t

/-- The loop of `capi/src/trace.rs:84-101`: how much was read, what is in the buffer, and what the callback was
called with. -/
def writeLoop : Nat → Bytes → Bytes → Nat × Bytes × List Bytes
  | 0, buf, _ => (0, buf, [])
  | fuel + 1, buf, input =>
    match readUntil 10 input with
    | ([], _) => (0, buf, [])
    | (c, rest) =>
      if (buf ++ c).getLast? = some 10 then
        match writeLoop fuel [] rest with
        | (n, b, calls) => (c.length + n, b, cstr (buf ++ c ++ [0]) :: calls)
      else (c.length, buf ++ c, [])

/-- `capi/src/trace.rs:79-102` (`LineWriter::write`). -/
def write (buf input : Bytes) : Nat × Bytes × List Bytes := writeLoop (input.length + 1) buf input

/-- `Write::write_all` (standard library): parts that were not written are written again. -/
def writeAll : Nat → Bytes → Bytes → Bytes × List Bytes
  | 0, buf, _ => (buf, [])
  | fuel + 1, buf, input =>
    if input = [] then (buf, [])
    else
      match write buf input with
      | (n, b, calls) =>
        match writeAll fuel b (input.drop n) with
        | (b, more) => (b, calls ++ more)

/-- The writes of an event. -/
def writes (buf : Bytes) : List Bytes → Bytes × List Bytes
  | [] => (buf, [])
  | s :: rest =>
    match writeAll (s.length + 1) buf s with
    | (b, calls) =>
      match writes b rest with
      | (b, more) => (b, calls ++ more)

/-- What is installed: the level and the callback (a number). -/
abbrev Global := Option (Level × Nat)

/-- `capi/src/trace.rs:126-143` (`blaze_trace`), with `set_global_default`, which fails if there is a subscriber
already: the error code and what is installed. -/
def blazeTrace (g : Global) (lvl : UInt8) (cb : Nat) : Int × Global :=
  match g with
  | none => (0, some (levelFilter lvl, cb))
  | some _ => (-17, g)

/-- What happens in a program. -/
inductive Op where
  | trace (lvl : UInt8) (cb : Nat)
  | event (level : Level) (parts : List Bytes)

/-- What the program sees: error codes and calls of callbacks. -/
inductive Seen where
  | code (err : Int)
  | line (cb : Nat) (text : Bytes)
  deriving DecidableEq

/-- An event: every event has its own writer (`capi/src/trace.rs:136-139`), which is dropped with what is left in
its buffer. -/
def event (g : Global) (level : Level) (parts : List Bytes) : List Seen :=
  match g with
  | none => []
  | some (filter, cb) =>
    if level.verbosity ≤ filter.verbosity then (writes [] parts).2.map (.line cb) else []

/-- A program. -/
def run (g : Global) : List Op → List Seen
  | [] => []
  | .trace lvl cb :: rest =>
    match blazeTrace g lvl cb with
    | (err, g) => .code err :: run g rest
  | .event level parts :: rest => event g level parts ++ run g rest

end Blazesym.CApi.Trace
