import Verif.CApi.Abi
import Verif.CApi.InputSpec

/-! # What it means that programs and the library agree on structures -/

set_option autoImplicit false

namespace Blazesym.CApi.Abi

/-- Alignments of primitive types. -/
def IsAlign (a : Nat) : Prop := a = 1 ∨ a = 2 ∨ a = 4 ∨ a = 8

/-- An array of such a type has all elements aligned. -/
def Shape.Ok (s : Shape) : Prop := IsAlign s.align ∧ s.align ∣ s.size

/-- A target whose alignments are powers of two up to 8 and not above the sizes. -/
structure Regular (t : Target) : Prop where
  word : t.word.Ok
  align16 : t.align16 = 1 ∨ t.align16 = 2
  align32 : t.align32 = 1 ∨ t.align32 = 2 ∨ t.align32 = 4
  align64 : IsAlign t.align64

/-- 64 bit targets. -/
def bits64 : Target := ⟨⟨8, 8⟩, 2, 4, 8⟩

/-- 32 bit targets such as ARM. -/
def bits32 : Target := ⟨⟨4, 4⟩, 2, 4, 8⟩

/-- 32 bit targets such as i386, with less strict alignment. -/
def i386 : Target := ⟨⟨4, 4⟩, 2, 4, 4⟩

/-- Members with these shapes can be used at these offsets of a structure: they are aligned, within it, in
order, and do not overlap. -/
structure LaidOut (ss : List Shape) (offs : List Nat) (whole : Shape) : Prop where
  count : offs.length = ss.length
  inside : ∀ (i : Nat) (s : Shape) (off : Nat), ss[i]? = some s → offs[i]? = some off →
    s.align ∣ off ∧ s.align ∣ whole.align ∧ off + s.size ≤ whole.size
  apart : ∀ (i j : Nat) (s : Shape) (off off' : Nat), i < j → ss[i]? = some s → offs[i]? = some off →
    offs[j]? = some off' → off + s.size ≤ off'
  whole : whole.Ok

/-- No member could be moved to the front: what is between two members is less than the alignment of the second. -/
def Tight (ss : List Shape) (offs : List Nat) (whole : Shape) : Prop :=
  (∀ (s : Shape), ss[0]? = some s → offs[0]? = some 0) ∧
  (∀ (i : Nat) (s s' : Shape) (off off' : Nat), ss[i]? = some s → offs[i]? = some off → ss[i + 1]? = some s' →
    offs[i + 1]? = some off' → off' < off + s.size + s'.align) ∧
  ∀ (s : Shape) (off : Nat), ss.getLast? = some s → offs.getLast? = some off → whole.size < off + s.size + whole.align

/-- The members take up all of a structure: there is no padding. -/
def Dense (ss : List Shape) : Prop := (ss.map Shape.size).sum = (structShape ss).size

/-- The members of the input structures in the header. -/
def headerOf : InputType → Members
  | .cacheElf => Header.cacheSrcElf
  | .cacheProcess => Header.cacheSrcProcess
  | .srcElf => Header.symbolizeSrcElf
  | .srcKernel => Header.symbolizeSrcKernel
  | .srcProcess => Header.symbolizeSrcProcess
  | .srcGsymData => Header.symbolizeSrcGsymData
  | .srcGsymFile => Header.symbolizeSrcGsymFile
  | .symbolizerOpts => Header.symbolizerOpts
  | .normalizerOpts => Header.normalizerOpts
  | .normalizeOpts => Header.normalizeOpts
  | .inspectElf => Header.inspectElfSrc

/-- Where a member is on 64 bit targets. -/
def Members.at64 (ms : Members) (name : String) : Option Nat :=
  ((ms.map Prod.fst).zip (ms.offsets bits64)).lookup name

end Blazesym.CApi.Abi
