import Verif.Breakpad.Types
import Verif.Util.BytesSpec
import Verif.Util.Sort
import Verif.Util.PathSpec
import Verif.Symbolize.Types

/-!
Specification of the text of Breakpad symbol files and of what it means.

See <https://github.com/google/breakpad/blob/main/docs/symbol_files.md>.
-/

set_option autoImplicit false

namespace Blazesym.Spec.Breakpad
open Blazesym.Breakpad Blazesym.Util

/-- A set of texts. -/
abbrev Lang := Bytes → Prop

/-- One text followed by another. -/
def Lang.seq (L M : Lang) : Lang := fun t => ∃ x y, t = x ++ y ∧ L x ∧ M y
infixr:67 " ∙ " => Lang.seq

/-- Exactly this text. -/
def lit (s : String) : Lang := fun t => t = ascii s

/-- A space or a tab. -/
def Blank (c : UInt8) : Prop := c = 32 ∨ c = 9

/-- One or more spaces and tabs. -/
def Blanks : Lang := fun t => t ≠ [] ∧ ∀ c ∈ t, Blank c

/-- Blanks of which the first is a space. -/
def Sp : Lang := fun t => ∃ b, t = 32 :: b ∧ ∀ c ∈ b, Blank c

/-- Any number of spaces, tabs and line breaks. -/
def Ws : Lang := fun t => ∀ c ∈ t, c = 32 ∨ c = 9 ∨ c = 13 ∨ c = 10

/-- The end of a line: a newline after any number of carriage returns. -/
def Eol : Lang := fun t => ∃ n, t = List.replicate n 13 ++ [10]

/-- A hexadecimal number of up to `digits` digits. -/
def Hex (digits v : Nat) : Lang := fun t =>
  t ≠ [] ∧ t.length ≤ digits ∧ (∀ c ∈ t, IsDigit 16 c) ∧ numVal 16 t = v

/-- A decimal number of up to ten digits that fits 32 bits. -/
def Dec (v : Nat) : Lang := fun t =>
  t ≠ [] ∧ t.length ≤ 10 ∧ (∀ c ∈ t, IsDigit 10 c) ∧ numVal 10 t = v ∧ v < 2 ^ 32

/-- The rest of a line. -/
def Rest : Lang := fun t => ∀ c ∈ t, c ≠ 13 ∧ c ≠ 10

/-- The rest of a line (not starting with blanks, which belong to what comes before). -/
def Tail (n : Bytes) : Lang := fun t =>
  t = n ∧ Rest t ∧ ∀ c, t.head? = some c → ¬ Blank c

/-- A name: the rest of a line, in UTF-8. -/
def Name (n : Bytes) : Lang := fun t => Tail n t ∧ isUtf8 n = true

/-- A word of a `MODULE` record.  (The program also takes line breaks to be part of a word.) -/
def Word : Lang := fun t => (∀ c ∈ t, c ≠ 32) ∧ ∃ c, t.head? = some c ∧ c ≠ 9

/-- An optional marker for functions that share their code with others. -/
def Multiple : Lang := fun t => t = [] ∨ (lit "m" ∙ Blanks) t

/-- The address ranges of an `INLINE` record. -/
def Ranges : List (Nat × Nat) → Lang
  | [] => fun _ => False
  | [r] => Hex 16 r.1 ∙ Blanks ∙ Hex 8 r.2
  | r :: rs => Hex 16 r.1 ∙ Blanks ∙ Hex 8 r.2 ∙ Blanks ∙ Ranges rs

/-- The records that can follow a `FUNC` record and belong to it. -/
inductive Sub where
  | origin (id : Nat) (name : Bytes)
  | inline (depth callLine callFile originId : Nat) (ranges : List (Nat × Nat))
  | line (l : SourceLine)

/-- The text of such a record. -/
def Sub.text : Sub → Lang
  | .origin id name => lit "INLINE_ORIGIN" ∙ Sp ∙ Dec id ∙ Blanks ∙ Name name ∙ Eol
  | .inline depth callLine callFile originId ranges =>
    lit "INLINE" ∙ Sp ∙ Dec depth ∙ Blanks ∙ Dec callLine ∙ Blanks ∙ Dec callFile ∙ Blanks ∙
      Dec originId ∙ Blanks ∙ Ranges ranges ∙ Eol
  | .line l => Hex 16 l.addr ∙ Blanks ∙ Hex 8 l.size ∙ Blanks ∙ Dec l.line ∙ Blanks ∙ Dec l.file ∙ Eol

/-- Texts in a row. -/
def Texts {α : Type} (L : α → Lang) : List α → Lang
  | [] => fun t => t = []
  | a :: l => L a ∙ Texts L l

/-- The records of a symbol file. -/
inductive Record where
  | module (name : Bytes)
  | info
  | file (id : Nat) (name : Bytes)
  | origin (id : Nat) (name : Bytes)
  | pub (p : PublicSymbol)
  | func (addr size parameterSize : Nat) (name : Bytes) (subs : List Sub)
  | win
  | cfi (more : List Unit)

/-- The text of a record. -/
def Record.text : Record → Lang
  | .module name =>
    lit "MODULE" ∙ Blanks ∙ Word ∙ Sp ∙ Word ∙ Sp ∙ Word ∙ Sp ∙ Tail name ∙ Eol ∙ Ws
  | .info => lit "INFO" ∙ Blanks ∙ Rest ∙ Eol ∙ Ws
  | .file id name => lit "FILE" ∙ Blanks ∙ Dec id ∙ Blanks ∙ Name name ∙ Eol ∙ Ws
  | .origin id name => lit "INLINE_ORIGIN" ∙ Blanks ∙ Dec id ∙ Blanks ∙ Name name ∙ Eol ∙ Ws
  | .pub p => lit "PUBLIC" ∙ Blanks ∙ Multiple ∙ Hex 16 p.addr ∙ Blanks ∙ Hex 8 p.parameterSize ∙
      Blanks ∙ Name p.name ∙ Eol ∙ Ws
  | .func addr size parameterSize name subs =>
    lit "FUNC" ∙ Blanks ∙ Multiple ∙ Hex 16 addr ∙ Blanks ∙ Hex 8 size ∙ Blanks ∙
      Hex 8 parameterSize ∙ Blanks ∙ Name name ∙ Eol ∙ Ws ∙ Texts Sub.text subs
  | .win => lit "STACK WIN" ∙ Blanks ∙ Rest ∙ Eol ∙ Ws
  | .cfi more => lit "STACK CFI INIT" ∙ Blanks ∙ Rest ∙ Eol ∙ Ws ∙
      Texts (fun _ => lit "STACK CFI" ∙ Blanks ∙ Rest ∙ Eol) more

/-- What follows a record does not still belong to it. -/
def Record.EndsBefore : Record → Bytes → Prop
  | .func .., y => ¬ ascii "INLINE_ORIGIN " <+: y
  | .cfi .., y => ¬ (ascii "STACK CFI " <+: y ∨ ascii "STACK CFI\t" <+: y)
  | _, _ => True

/-- The text of a sequence of records. -/
def Records : List Record → Lang
  | [] => fun t => t = []
  | r :: rs => fun t => ∃ x y, t = x ++ y ∧ r.text x ∧ r.EndsBefore y ∧ Records rs y

/-- It is a `MODULE` record. -/
def Record.IsModule : Record → Prop
  | .module _ => True
  | _ => False

/-- The text is a symbol file with these records: at least one, the `MODULE` record, if
there is one, comes first, and the text ends with a newline. -/
def IsSymbolFile (rs : List Record) (t : Bytes) : Prop :=
  rs ≠ [] ∧ Records rs t ∧ (∀ r ∈ rs.tail, ¬ r.IsModule) ∧ t.getLast? = some 10

/-! ### The meaning of the records -/

/-- The source files, in order. -/
def files (rs : List Record) : List (Nat × Bytes) :=
  rs.filterMap fun r => match r with
    | .file id name => some (id, name)
    | _ => none

/-- The `INLINE_ORIGIN` records among those of a function. -/
def subOrigins (subs : List Sub) : List (Nat × Bytes) :=
  subs.filterMap fun s => match s with
    | .origin id name => some (id, name)
    | _ => none

/-- The names of inlined functions, in order. -/
def origins (rs : List Record) : List (Nat × Bytes) :=
  rs.flatMap fun r => match r with
    | .origin id name => [(id, name)]
    | .func _ _ _ _ subs => subOrigins subs
    | _ => []

/-- The line records of a function, in order. -/
def lines (subs : List Sub) : List SourceLine :=
  subs.filterMap fun s => match s with
    | .line l => some l
    | _ => none

/-- The inlined calls of a function, in order: one for each range. -/
def inlinees (subs : List Sub) : List Inlinee :=
  subs.flatMap fun s => match s with
    | .inline depth callLine callFile originId ranges =>
      ranges.map fun r => ⟨depth, r.1, r.2, callFile, callLine, originId⟩
    | _ => []

/-- The functions, in order, with the records that follow them. -/
def functions (rs : List Record) : List Function :=
  rs.filterMap fun r => match r with
    | .func addr size parameterSize name subs =>
      some ⟨addr, size, parameterSize, name, lines subs, inlinees subs⟩
    | _ => none

/-- The name of the module: that of the first record, if it is a `MODULE` record. -/
def module? (rs : List Record) : Option Bytes :=
  match rs with
  | .module name :: _ => some name
  | _ => none

/-- The name last given to a number. -/
def latest (l : List (Nat × Bytes)) (id : Nat) : Option Bytes := l.reverse.lookup id

/-- A function with its line records sorted by address and size, its inlined calls sorted by
depth and address, records that agree in these in the order of the file. -/
def Sorted (raw f : Function) : Prop :=
  f.addr = raw.addr ∧ f.size = raw.size ∧ f.parameterSize = raw.parameterSize ∧ f.name = raw.name ∧
  StableSorted (fun l => pairKey l.addr l.size) raw.lines f.lines ∧
  StableSorted (fun i => pairKey i.depth i.addr) raw.inlinees f.inlinees

/-- The symbol data is that of the records. -/
structure Describes (rs : List Record) (f : SymbolFile) : Prop where
  module : f.module = module? rs
  files : ∀ id, f.files.lookup id = latest (files rs) id
  origins : ∀ id, f.inlineOrigins.lookup id = latest (origins rs) id
  functions : ∃ fs, List.Forall₂ Sorted (functions rs) fs ∧
    StableSorted (fun f => pairKey f.addr f.size) fs f.functions

/-- A record with start and size covers an address.  An empty record covers its start. -/
def Covers (start size addr : Nat) : Prop := start = addr ∧ size = 0 ∨ start ≤ addr ∧ addr < start + size

/-- `s` is not above the address, and no record starts between it and the address. -/
def IsLastStart {α : Type} (start : α → Nat) (l : List α) (addr s : Nat) : Prop :=
  s ≤ addr ∧ ∀ e ∈ l, start e ≤ addr → start e ≤ s

/-- The line record that a lookup goes by: one that covers the address and no other starts between
its start and the address. -/
def LineFor (f : Function) (addr : Nat) (l : SourceLine) : Prop :=
  l ∈ f.lines ∧ Covers l.addr l.size addr ∧ IsLastStart (fun l => l.addr) f.lines addr l.addr

/-- The same for functions. -/
def FunctionFor (file : SymbolFile) (addr : Nat) (f : Function) : Prop :=
  f ∈ file.functions ∧ Covers f.addr f.size addr ∧
    IsLastStart (fun f => f.addr) file.functions addr f.addr

/-- The source location `ci` is line `line` of file number `id`. -/
def SiteIs (file : SymbolFile) (id line : Nat) (ci : Symbolize.CodeInfo) : Prop :=
  ∃ path dir, file.files.lookup id = some path ∧
    components path = components dir ++ [ci.file] ∧ dir <+: path ∧
    ci.dir = (if dir = [] then none else some dir) ∧ ci.line = some line ∧ ci.column = none

/-- The number is that of a source file, which has a name. -/
def KnownFile (file : SymbolFile) (id : Nat) : Prop :=
  ∃ path, file.files.lookup id = some path ∧ components path ≠ []

/-- No record that starts at or below the address reaches the end of the address space. -/
def Fits {α : Type} (start size : α → Nat) (l : List α) (addr : Nat) : Prop :=
  ∀ e ∈ l, start e ≤ addr → start e + size e < 2 ^ 64

/-- The inlined call contains the address. -/
def Contains (i : Inlinee) (addr : Nat) : Prop := i.addr ≤ addr ∧ addr < i.addr + i.size

end Blazesym.Spec.Breakpad
