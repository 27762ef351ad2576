import Verif.Basic

/-!
# Model of the error type (`src/error.rs`)

An error of another library is what it displays as together with what the errors `source()` leads to
display as.  A captured backtrace is the text it displays as.
-/

set_option autoImplicit false

namespace Blazesym.Error

/-- `src/error.rs:296-329` (`ErrorKind`). -/
inductive ErrorKind where
  | notFound
  | permissionDenied
  | alreadyExists
  | wouldBlock
  | invalidInput
  | invalidData
  | invalidDwarf
  | timedOut
  | writeZero
  | unsupported
  | unexpectedEof
  | outOfMemory
  | other
  deriving DecidableEq, Repr

/-- `std::io::ErrorKind`; `rest` stands for the variants `src/error.rs` does not name. -/
inductive IoKind where
  | notFound
  | permissionDenied
  | alreadyExists
  | wouldBlock
  | invalidInput
  | invalidData
  | timedOut
  | writeZero
  | unsupported
  | unexpectedEof
  | outOfMemory
  | rest (name : Bytes)
  deriving DecidableEq, Repr

/-- `src/error.rs:102-133` (`ErrorImpl`).  `gimli::Error` has no source. -/
inductive ErrorImpl where
  | dwarf (text : Bytes) (backtrace : Option Bytes)
  | io (kind : IoKind) (text : Bytes) (sources : List Bytes) (backtrace : Option Bytes)
  | std (text : Bytes) (sources : List Bytes) (backtrace : Option Bytes)
  | contextOwned (context : Bytes) (source : ErrorImpl)
  | contextStatic (context : Bytes) (source : ErrorImpl)
  deriving DecidableEq, Repr

/-- `src/error.rs:136-159` (`kind`). -/
def ErrorImpl.kind : ErrorImpl → ErrorKind
  | .dwarf _ _ => .invalidDwarf
  | .io kind _ _ _ =>
    match kind with
    | .notFound => .notFound
    | .permissionDenied => .permissionDenied
    | .alreadyExists => .alreadyExists
    | .wouldBlock => .wouldBlock
    | .invalidInput => .invalidInput
    | .invalidData => .invalidData
    | .timedOut => .timedOut
    | .writeZero => .writeZero
    | .unsupported => .unsupported
    | .unexpectedEof => .unexpectedEof
    | .outOfMemory => .outOfMemory
    | .rest _ => .other
  | .std _ _ _ => .other
  | .contextOwned _ source => source.kind
  | .contextStatic _ source => source.kind

/-- `src/error.rs:163-172` (`backtrace`). -/
def ErrorImpl.backtrace : ErrorImpl → Option Bytes
  | .dwarf _ backtrace => backtrace
  | .io _ _ _ backtrace => backtrace
  | .std _ _ backtrace => backtrace
  | .contextOwned _ source => source.backtrace
  | .contextStatic _ source => source.backtrace

/-- `src/error.rs:254-261`: what the error displays as without its sources. -/
def ErrorImpl.own : ErrorImpl → Bytes
  | .dwarf text _ => text
  | .io _ text _ _ => text
  | .std text _ _ => text
  | .contextOwned context _ => context
  | .contextStatic context _ => context

/-- A `&dyn StdError`: an error of this library or the chain of one of another library. -/
inductive Dyn where
  | ours (e : ErrorImpl)
  | theirs (text : Bytes) (sources : List Bytes)
  deriving DecidableEq, Repr

/-- `source()` of an error of another library. -/
def theirSource : List Bytes → Option Dyn
  | [] => none
  | t :: ts => some (.theirs t ts)

/-- `src/error.rs:274-284` (`source`). -/
def ErrorImpl.source : ErrorImpl → Option Dyn
  | .dwarf _ _ => none
  | .io _ _ sources _ => theirSource sources
  | .std _ sources _ => theirSource sources
  | .contextOwned _ source => some (.ours source)
  | .contextStatic _ source => some (.ours source)

/-- `source()` of a `&dyn StdError`. -/
def Dyn.source : Dyn → Option Dyn
  | .ours e => e.source
  | .theirs _ sources => theirSource sources

/-- `{err}` of a `&dyn StdError`: not the alternate form. -/
def Dyn.own : Dyn → Bytes
  | .ours e => e.own
  | .theirs text _ => text

/-- The number of errors `source()` leads to. -/
def ErrorImpl.depth : ErrorImpl → Nat
  | .dwarf _ _ => 0
  | .io _ _ sources _ => sources.length
  | .std _ sources _ => sources.length
  | .contextOwned _ source => source.depth + 1
  | .contextStatic _ source => source.depth + 1

/-- The number of errors `source()` leads to. -/
def Dyn.depth : Dyn → Nat
  | .ours e => e.depth
  | .theirs _ sources => sources.length

theorem theirSource_depth {l : List Bytes} {d : Dyn} (h : theirSource l = some d) : d.depth < l.length := by
  cases l with
  | nil => simp [theirSource] at h
  | cons t ts => simp only [theirSource, Option.some.injEq] at h; subst h; simp [Dyn.depth]

theorem ErrorImpl.source_depth {e : ErrorImpl} {d : Dyn} (h : e.source = some d) : d.depth < e.depth := by
  cases e with
  | dwarf t b => simp [ErrorImpl.source] at h
  | io k t ss b => simpa [ErrorImpl.depth] using theirSource_depth h
  | std t ss b => simpa [ErrorImpl.depth] using theirSource_depth h
  | contextOwned c s => simp only [ErrorImpl.source, Option.some.injEq] at h; subst h; simp [Dyn.depth, ErrorImpl.depth]
  | contextStatic c s => simp only [ErrorImpl.source, Option.some.injEq] at h; subst h; simp [Dyn.depth, ErrorImpl.depth]

theorem Dyn.source_depth {e d : Dyn} (h : e.source = some d) : d.depth < e.depth := by
  cases e with
  | ours e => simpa [Dyn.depth] using ErrorImpl.source_depth h
  | theirs t ss => simpa [Dyn.depth] using theirSource_depth h

/-- `src/error.rs:264-268` and `:234-238`: the loop over the sources. -/
def writeSources (sep : Bytes) (error : Option Dyn) : Bytes :=
  match error with
  | none => []
  | some err => sep ++ err.own ++ writeSources sep err.source
termination_by (error.map fun e => e.depth + 1).getD 0
decreasing_by
  cases h : err.source with
  | none => simp
  | some d => simpa using Dyn.source_depth h

/-- `src/error.rs:252-272` (`Display`); `alternate` is the `#` flag. -/
def ErrorImpl.display (e : ErrorImpl) (alternate : Bool) : Bytes :=
  if alternate then e.own ++ writeSources (ascii ": ") e.source else e.own

/-- `src/error.rs:221-248` (`Debug` without the `#` flag). -/
def ErrorImpl.debug (e : ErrorImpl) : Bytes :=
  let causes :=
    match e.source with
    | none => []
    | some source => ascii "\n\nCaused by:" ++ writeSources (ascii "\n    ") (some source)
  let trace :=
    match e.backtrace with
    | none => []
    | some backtrace => ascii "\n\nStack backtrace:\n" ++ backtrace
  ascii "Error: " ++ e.own ++ causes ++ trace

/-- `Cow<'static, Str>`. -/
inductive Cow where
  | owned (s : Bytes)
  | borrowed (s : Bytes)
  deriving DecidableEq, Repr

/-- `src/error.rs:490-505` (`layer_context`). -/
def ErrorImpl.layerContext (e : ErrorImpl) : Cow → ErrorImpl
  | .owned context => .contextOwned context e
  | .borrowed context => .contextStatic context e

/-- `src/error.rs:611-637` (`context` of a `Result`). -/
def context {α : Type} (r : Except ErrorImpl α) (c : Cow) : Except ErrorImpl α :=
  match r with
  | .ok val => .ok val
  | .error err => .error (err.layerContext c)

/-- `src/error.rs:441-446` (`with_io_error`): `io::Error::new` of a string has no source. -/
def withIoError (kind : IoKind) (text : Bytes) (backtrace : Option Bytes) : ErrorImpl :=
  .io kind text [] backtrace

/-- `src/error.rs:716-725` (`ok_or_error`). -/
def okOrError {α : Type} (o : Option α) (kind : IoKind) (text : Bytes) (backtrace : Option Bytes) :
    Except ErrorImpl α :=
  match o with
  | some a => .ok a
  | none => .error (withIoError kind text backtrace)

/-- `src/error.rs:334-350` (`as_bytes`), with the terminating NUL. -/
def ErrorKind.asBytes : ErrorKind → Bytes
  | .alreadyExists => ascii "entity already exists" ++ [0]
  | .invalidData => ascii "invalid data" ++ [0]
  | .invalidInput => ascii "invalid input parameter" ++ [0]
  | .notFound => ascii "entity not found" ++ [0]
  | .other => ascii "other error" ++ [0]
  | .outOfMemory => ascii "out of memory" ++ [0]
  | .permissionDenied => ascii "permission denied" ++ [0]
  | .timedOut => ascii "timed out" ++ [0]
  | .unexpectedEof => ascii "unexpected end of file" ++ [0]
  | .unsupported => ascii "unsupported" ++ [0]
  | .wouldBlock => ascii "operation would block" ++ [0]
  | .writeZero => ascii "write zero" ++ [0]
  | .invalidDwarf => ascii "DWARF data invalid" ++ [0]

/-- `src/error.rs:353-360` (`Display` of `ErrorKind`). -/
def ErrorKind.display (k : ErrorKind) : Bytes := k.asBytes.take (k.asBytes.length - 1)

end Blazesym.Error
