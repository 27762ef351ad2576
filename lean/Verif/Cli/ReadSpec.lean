import Verif.Util.TextSpec

/-!
# Reading what the command line tool prints (independent of the model)

How someone (or a script) who knows the format takes the output apart.
-/

set_option autoImplicit false

namespace Blazesym.Spec.Cli

/-- What is before and after the first occurrence of `pat`. -/
def cut (pat : Bytes) : Bytes → Option (Bytes × Bytes)
  | [] => if pat = [] then some ([], []) else none
  | b :: t =>
    if pat <+: b :: t then some ([], (b :: t).drop pat.length)
    else (cut pat t).map fun x => (b :: x.1, x.2)

/-- What is before and after the last occurrence of `pat`. -/
def cutLast (pat s : Bytes) : Option (Bytes × Bytes) :=
  (cut pat.reverse s.reverse).map fun x => (x.2.reverse, x.1.reverse)

/-- What follows `pre`, if the text starts with it. -/
def afterStart (pre s : Bytes) : Option Bytes := if pre <+: s then some (s.drop pre.length) else none

/-- What precedes `suf`, if the text ends with it. -/
def beforeEnd (suf s : Bytes) : Option Bytes := if suf <:+ s then some (s.take (s.length - suf.length)) else none

/-- A number. -/
def number (base : Nat) (s : Bytes) : Option Nat :=
  if s ≠ [] ∧ ∀ c ∈ s, IsDigit base c then some (numVal base s) else none

/-- A number written like `0x12ab`. -/
def hex (s : Bytes) : Option Nat := (afterStart (ascii "0x") s).bind (number 16)

/-- Bytes, each written as two hexadecimal digits. -/
def hexBytes : Bytes → Option Bytes
  | [] => some []
  | [_] => none
  | a :: b :: t =>
    if IsDigit 16 a ∧ IsDigit 16 b then
      (hexBytes t).map fun r => UInt8.ofNat (16 * digitVal a + digitVal b) :: r
    else none

/-- The lines of a text; each of them ends with a newline. -/
def textLines (t : Bytes) : Option (List Bytes) :=
  let fs := fields (· == 10) t
  if fs.getLast? = some [] then some fs.dropLast else none

/-! ### `symbolize` -/

/-- A place in source code. -/
structure Place where
  path : Bytes
  line : Option Nat
  column : Option Nat
  deriving DecidableEq

/-- What is printed for a symbol. -/
structure Frame where
  name : Bytes
  start : Nat
  offset : Nat
  place : Option Place
  /-- The functions that are inlined there. -/
  inlined : List (Bytes × Option Place)
  deriving DecidableEq

/-- `path`, `path:line` or `path:line:column`. -/
def place (s : Bytes) : Option Place :=
  match fields (· == 58) s with
  | [path] => some ⟨path, none, none⟩
  | [path, line] => (number 10 line).map fun l => ⟨path, some l, none⟩
  | [path, line, column] => (number 10 line).bind fun l => (number 10 column).map fun c => ⟨path, some l, some c⟩
  | _ => none

/-- 18 spaces, `name` or `name @ place`, ` [inlined]`. -/
def inlinedLine (s : Bytes) : Option (Bytes × Option Place) :=
  (afterStart (List.replicate 18 32) s).bind fun s =>
    (beforeEnd (ascii " [inlined]") s).bind fun s =>
      match cut (ascii " @ ") s with
      | none => some (s, none)
      | some (name, at') => (place at').map fun p => (name, some p)

/-- `name @ start+offset` or `name @ start+offset place`. -/
def frame (s : Bytes) : Option Frame :=
  (cut (ascii " @ ") s).bind fun (name, s) =>
    (cut (ascii "+") s).bind fun (start, s) =>
      match cut (ascii " ") s with
      | none => (hex start).bind fun start => (hex s).map fun offset => ⟨name, start, offset, none, []⟩
      | some (offset, at') =>
        (hex start).bind fun start => (hex offset).bind fun offset => (place at').map fun p =>
          ⟨name, start, offset, some p, []⟩

/-- `address: <no-symbol>` or `address: frame`. -/
def addressLine (s : Bytes) : Option (Nat × Option Frame) :=
  (cut (ascii ": ") s).bind fun (addr, s) =>
    (hex addr).bind fun addr =>
      if s = ascii "<no-symbol>" then some (addr, none) else (frame s).map fun f => (addr, some f)

/-- The frames; those that are inlined belong to the address above them.  Also the inlined frames at the
start. -/
def gather : List Bytes → Option (List (Bytes × Option Place) × List (Nat × Option Frame))
  | [] => some ([], [])
  | l :: ls =>
    (gather ls).bind fun (inlined, rest) =>
      match inlinedLine l with
      | some i => some (i :: inlined, rest)
      | none =>
        match addressLine l with
        | some (addr, some f) => some ([], (addr, some { f with inlined }) :: rest)
        | some (addr, none) => if inlined = [] then some ([], (addr, none) :: rest) else none
        | none => none

/-- The addresses and what is printed for them. -/
def readFrames (t : Bytes) : Option (List (Nat × Option Frame)) :=
  (textLines t).bind fun ls => (gather ls).bind fun (inlined, frames) => if inlined = [] then some frames else none

/-! ### `normalize` -/

/-- A place in a file. -/
structure InFile where
  offset : Nat
  path : Bytes
  buildId : Option Bytes
  deriving DecidableEq

/-- `file offset OFFSET in PATH` or `file offset OFFSET in PATH (build ID: ID)`. -/
def inFile (s : Bytes) : Option InFile :=
  (afterStart (ascii "file offset ") s).bind fun s =>
    (cut (ascii " in ") s).bind fun (off, s) =>
      (hex off).bind fun offset =>
        match cut (ascii " (build ID: ") s with
        | none => some ⟨offset, s, none⟩
        | some (path, s) => (beforeEnd (ascii ")") s).bind fun s => (hexBytes s).map fun id => ⟨offset, path, some id⟩

/-- `address: <unknown>` or `address: place`. -/
def normalizedLine (s : Bytes) : Option (Nat × Option InFile) :=
  (cut (ascii ": ") s).bind fun (addr, s) =>
    (hex addr).bind fun addr =>
      if s = ascii "<unknown>" then some (addr, none) else (inFile s).map fun f => (addr, some f)

/-- The addresses and what is printed for them. -/
def readNormalized (t : Bytes) : Option (List (Nat × Option InFile)) :=
  (textLines t).bind fun ls => ls.mapM normalizedLine

/-! ### `inspect` -/

/-- What is printed for a symbol. -/
structure Listed where
  name : Bytes
  addr : Nat
  size : Option Nat
  kind : Bytes
  deriving DecidableEq

/-- `name:    address (size=SIZE)   [KIND]`; the size is a number or `N/A`. -/
def listedLine (s : Bytes) : Option Listed :=
  (cutLast (ascii " [") s).bind fun (s, kind) =>
    (beforeEnd (ascii "]") kind).bind fun kind =>
      (cutLast (ascii " (size=") s).bind fun (s, size) =>
        (cut (ascii ")") size).bind fun (size, blank) =>
          (cutLast (ascii " ") s).bind fun (s, addr) =>
            (hex addr).bind fun addr =>
              (beforeEnd (ascii ":") (s.reverse.dropWhile (· == 32)).reverse).bind fun name =>
                if blank.all (· == 32) then
                  if size = ascii "N/A" then some ⟨name, addr, none, kind⟩
                  else (number 10 size).map fun n => ⟨name, addr, some n, kind⟩
                else none

/-- The symbols that are listed. -/
def readListed (t : Bytes) : Option (List Listed) := (textLines t).bind fun ls => ls.mapM listedLine

end Blazesym.Spec.Cli
