import Verif.Util.Sort

/-!
# Model of the parser combinators used by `src/breakpad/parser.rs`

The `nom` crate (version 7, `complete` variants), restricted to byte slice input and to the error type
`VerboseError`.
-/

set_option autoImplicit false

namespace Blazesym.Breakpad

/-- `nom::error::ErrorKind`, those that occur. -/
inductive ErrorKind where
  | tag
  | space
  | hexDigit
  | digit
  | tooLarge
  | mapRes
  | separatedList
  | alt
  deriving DecidableEq, Repr

/-- `nom::error::VerboseError`: what was left of the input for a parser that failed, and which kind of parser
it was, from the innermost parser outwards. -/
abbrev Trail := List (Bytes × ErrorKind)

/-- `nom::Err` with a `VerboseError`; `Incomplete` is not produced by `complete` parsers. -/
inductive NErr where
  | error (trail : Trail)
  | failure (trail : Trail)
  deriving DecidableEq, Repr

/-- The error in either case. -/
def NErr.trail : NErr → Trail
  | .error t => t
  | .failure t => t

/-- `IResult<&[u8], T, E>` of a parser: what is left of the input and the value. -/
def Nom (α : Type) : Type := Bytes → Except NErr (Bytes × α)

/-- Run one parser after the other (`tuple`, `terminated`, `preceded` and the `?` operator). -/
def Nom.bind {α β : Type} (p : Nom α) (f : α → Nom β) : Nom β := fun input =>
  match p input with
  | .error e => .error e
  | .ok (rest, a) => f a rest

instance : Monad Nom where
  pure a := fun input => .ok (input, a)
  bind := Nom.bind

/-- `nom::bytes::complete::tag`. -/
def tag (t : Bytes) : Nom Unit := fun input =>
  if t.isPrefixOf input then .ok (input.drop t.length, ()) else .error (.error [(input, .tag)])

/-- `nom::bytes::complete::take_while`. -/
def takeWhile (p : UInt8 → Bool) : Nom Bytes := fun input =>
  .ok (input.dropWhile p, input.takeWhile p)

/-- A space or a tab, `nom::character::complete::space1`. -/
def isBlank (b : UInt8) : Bool := b == 32 || b == 9

/-- `nom::character::complete::space1`. -/
def space1 : Nom Unit := fun input =>
  match input.takeWhile isBlank with
  | [] => .error (.error [(input, .space)])
  | _ :: _ => .ok (input.dropWhile isBlank, ())

/-- `nom::character::complete::multispace0`. -/
def isMultispace (b : UInt8) : Bool := b == 32 || b == 9 || b == 13 || b == 10

/-- `nom::character::complete::multispace0`. -/
def multispace0 : Nom Unit := fun input => .ok (input.dropWhile isMultispace, ())

/-- `nom::sequence::terminated`. -/
def terminated {α β : Type} (p : Nom α) (q : Nom β) : Nom α := do
  let a ← p
  let _ ← q
  pure a

/-- `nom::combinator::cut`. -/
def cut {α : Type} (p : Nom α) : Nom α := fun input =>
  match p input with
  | .error e => .error (.failure e.trail)
  | .ok r => .ok r

/-- `nom::combinator::opt`. -/
def opt {α : Type} (p : Nom α) : Nom (Option α) := fun input =>
  match p input with
  | .ok (rest, a) => .ok (rest, some a)
  | .error (.error _) => .ok (input, none)
  | .error (.failure t) => .error (.failure t)

/-- `nom::branch::alt` for two alternatives, except for the addition to the error (`alt`).  The error of an
earlier alternative gives way to that of a later one (`VerboseError` has the default `ParseError::or`). -/
def orElse {α : Type} (p q : Nom α) : Nom α := fun input =>
  match p input with
  | .error (.error _) => q input
  | r => r

/-- `nom::branch::alt`: what it adds to the error of the last alternative (`ParseError::append`). -/
def alt {α : Type} (p : Nom α) : Nom α := fun input =>
  match p input with
  | .error (.error t) => .error (.error (t ++ [(input, .alt)]))
  | r => r

/-- `nom::combinator::map`. -/
def mapTo {α β : Type} (p : Nom α) (f : α → β) : Nom β := do
  let a ← p
  pure (f a)

/-- `nom::combinator::map_res` with `str::from_utf8`. -/
def utf8 (p : Nom Bytes) : Nom Bytes := fun input =>
  match p input with
  | .error e => .error e
  | .ok (rest, s) => if isUtf8 s then .ok (rest, s) else .error (.error [(input, .mapRes)])

/-- The loop of `nom::multi::separated_list1`.  The separators and elements blazesym uses
consume input; the length of the input is fuel enough (`separatedLoop_ok`). -/
def separatedLoop {α β : Type} (sep : Nom β) (p : Nom α) : Nat → List α → Nom (List α)
  | 0, acc => fun input => .ok (input, acc)
  | fuel + 1, acc => fun input =>
    match sep input with
    | .error (.error _) => .ok (input, acc)
    | .error (.failure t) => .error (.failure t)
    | .ok (rest, _) =>
      if rest.length = input.length then .error (.error [(rest, .separatedList)])
      else
        match p rest with
        | .error (.error _) => .ok (input, acc)
        | .error (.failure t) => .error (.failure t)
        | .ok (rest', a) => separatedLoop sep p fuel (acc ++ [a]) rest'

/-- `nom::multi::separated_list1`. -/
def separatedList1 {α β : Type} (sep : Nom β) (p : Nom α) : Nom (List α) := fun input =>
  match p input with
  | .error e => .error e
  | .ok (rest, a) => separatedLoop sep p (rest.length + 1) [a] rest

end Blazesym.Breakpad
