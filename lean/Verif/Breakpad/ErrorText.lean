import Verif.Breakpad.Nom

/-! # Model of the messages for Breakpad files that cannot be read (`src/breakpad/parser.rs:76-199`) -/

set_option autoImplicit false

namespace Blazesym.Breakpad

/-- What an error says about one parser that failed. -/
structure Place where
  /-- The number of the line. -/
  line : Nat
  /-- The text of the line. -/
  text : Bytes
  /-- The column of the caret. -/
  column : Nat
  kind : ErrorKind
  deriving DecidableEq, Repr

/-- `src/breakpad/parser.rs:99-106`: where the line begins that ends the given bytes. -/
def lineBegin (before : Bytes) : Nat :=
  match before.reverse.findIdx? (fun b => b == 10) with
  | some pos => before.length - pos
  | none => 0

/-- `src/breakpad/parser.rs:80, 94-115`: `input.offset(substring)`, and the line and the column there.  What
is left for a parser is at the end of the input, so that its length tells where it begins. -/
def placeOf (input : Bytes) (substring : Bytes) (kind : ErrorKind) : Place :=
  let offset := input.length - substring.length
  let before := input.take offset
  let lineNumber := before.countP (fun b => b == 10) + 1
  let line := (input.drop (lineBegin before)).takeWhile (fun b => b != 10)
  { line := lineNumber, text := line, column := offset - lineBegin before + 1, kind }

/-- Why a file cannot be read, by the message. -/
inductive Fail where
  /-- `src/breakpad/parser.rs:600` "failed to parse input", and where. -/
  | corrupt (places : List Place)
  /-- `src/breakpad/parser.rs:610-612` "MODULE line found after the start of the file". -/
  | lateModule
  /-- `src/breakpad/file.rs:41-43` "empty SymbolFile". -/
  | empty
  /-- `src/breakpad/file.rs:46-48` "parser expects more data". -/
  | unfinished
  | panic
  deriving DecidableEq, Repr

/-- The kind of the error (`Error::with_invalid_input`). -/
def Fail.err : Fail → Err
  | .panic => .panic
  | _ => .invalidInput

/-- The loop of `src/breakpad/parser.rs:79-180`, for errors that are neither of `char` nor of `context`, of
which there are none here: the lines of the message.  The width of a `format!` argument is at most `u16::MAX`
(it is a panic otherwise since Rust 1.87; `rust-version` is 1.88).  Also simplified: the text of a line is
given as it is, rather than with what is not UTF-8 replaced and without spaces at its end.  The case of empty
input does not occur, as the loop of `parse` ends then. -/
def stringifyError (input : Bytes) : Trail → Except Err (List Place)
  | [] => .ok []
  | (substring, kind) :: rest =>
    let place := placeOf input substring kind
    if place.column < 65536 then
      match stringifyError input rest with
      | .error e => .error e
      | .ok places => .ok (place :: places)
    else .error .panic

/-- `src/breakpad/parser.rs:185-199` (`convert_nom_err_to_error`). -/
def convertNomErr (input : Bytes) (err : NErr) : Fail :=
  match stringifyError input err.trail with
  | .ok places => .corrupt places
  | .error _ => .panic

end Blazesym.Breakpad
