import Verif.Dwarf.Data

/-! Specification of line tables: the location of an address. -/

set_option autoImplicit false

namespace Blazesym.Spec.Dwarf
open Blazesym.Dwarf (Row LineProgram FileEntry)

/-- At position `pos` the rows have a sequence: the rows `seq`, none of which ends a sequence,
followed by a row that ends the sequence at the address `stop`.  It is preceded by nothing or by the
end of another sequence. -/
def SequenceAt (rows : List Row) (pos : Nat) (seq : List Row) (stop : Nat) : Prop :=
  ∃ before last after, rows = before ++ seq ++ last :: after ∧ pos = before.length ∧
    seq ≠ [] ∧ (∀ r ∈ seq, r.endSequence = false) ∧
    last.endSequence = true ∧ last.address = stop ∧
    (∀ r, before.getLast? = some r → r.endSequence = true)

/-- The sequence begins at the address `start`. -/
def StartsAt (seq : List Row) (start : Nat) : Prop := ∃ r rest, seq = r :: rest ∧ r.address = start

/-- The rows of a sequence are in the order of their addresses, a sequence is not empty, and sequences
do not overlap. -/
structure Orderly (rows : List Row) : Prop where
  ascending : ∀ pos seq stop, SequenceAt rows pos seq stop →
    seq.Pairwise (fun a b => a.address ≤ b.address)
  nonempty : ∀ pos seq stop start, SequenceAt rows pos seq stop → StartsAt seq start → start < stop
  disjoint : ∀ p₁ q₁ e₁ s₁ p₂ q₂ e₂ s₂, SequenceAt rows p₁ q₁ e₁ → StartsAt q₁ s₁ →
    SequenceAt rows p₂ q₂ e₂ → StartsAt q₂ s₂ → p₁ ≠ p₂ → e₁ ≤ s₂ ∨ e₂ ≤ s₁

/-- The row in effect at an address: the last one that is not above it, in the sequence that contains
the address. -/
def RowFor (rows : List Row) (addr : Nat) (row : Row) : Prop :=
  ∃ pos seq stop start pre post, SequenceAt rows pos seq stop ∧ StartsAt seq start ∧
    start ≤ addr ∧ addr < stop ∧ seq = pre ++ row :: post ∧ row.address ≤ addr ∧
    ∀ r ∈ post, addr < r.address

/-- A path relative to a directory. -/
def resolved (dir path : Bytes) : Bytes :=
  if path.head? = some 47 then path
  else if dir = [] ∨ dir.getLast? = some 47 then dir ++ path
  else dir ++ 47 :: path

/-- The directory of a file: the compilation directory, or a directory of the line program, which can
be relative to the compilation directory. -/
def DirIs (compDir : Option Bytes) (f : FileEntry) (dir : Bytes) : Prop :=
  if f.directoryIndex = 0 then dir = compDir.getD []
  else match f.directory with
    | none => dir = compDir.getD []
    | some (.ok d) => dir = resolved (compDir.getD []) d
    | some (.error _) => False

/-- File number `idx` of a line program has the given directory and name.  There need not be a file
number zero; it is then unnamed. -/
def FileIs (compDir : Option Bytes) (p : LineProgram) (idx : Nat) (dir name : Bytes) : Prop :=
  match idx with
  | 0 =>
    match p.file0 with
    | none => dir = [] ∧ name = []
    | some f => DirIs compDir f dir ∧ f.pathName = .ok name
  | i + 1 => ∃ f, p.files[i]? = some f ∧ DirIs compDir f dir ∧ f.pathName = .ok name

/-- All files of the line program can be decoded. -/
def FilesOk (p : LineProgram) : Prop :=
  ∀ f, (p.file0 = some f ∨ f ∈ p.files) → (∃ n, f.pathName = .ok n) ∧
    (f.directoryIndex ≠ 0 → ∀ d, f.directory = some d → ∃ b, d = .ok b)

end Blazesym.Spec.Dwarf
