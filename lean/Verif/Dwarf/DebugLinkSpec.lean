import Verif.Util.PathSpec

/-! Specification vocabulary for the search for separate debug files: the places to look at, in
order, as lists of path components. -/

set_option autoImplicit false

namespace Blazesym.Spec.Dwarf

/-- Two lower case hexadecimal digits. -/
def twoHex (b : UInt8) : Bytes :=
  let digits := ascii "0123456789abcdef"
  [digits.getD (b.toNat / 16) 0, digits.getD (b.toNat % 16) 0]

/-- The place for a build ID: `/usr/lib/debug/.build-id/ab/cdef0123.debug`. IDs shorter than 8 bytes are
not looked for. -/
def buildIdPlaces : Option Bytes → List (List Bytes)
  | some (first :: rest) =>
    if 7 ≤ rest.length then
      [[[47], ascii "usr", ascii "lib", ascii "debug", ascii ".build-id", twoHex first,
        rest.flatMap twoHex ++ ascii ".debug"]]
    else []
  | _ => []

/-- A directory and its ancestors, starting with the directory, except for the one all others are
in; only if there is no other, that one. -/
def lineage (dir : List Bytes) : List (List Bytes) :=
  if dir = [] then [[]] else (List.range dir.length).map fun k => dir.take (dir.length - k)

/-- The debug file `name` of the file in the directory `/dir`: in that directory itself, and in the
directories of the same name, and of the names of its ancestors, below the given directories. -/
def nearLinker (dirs : List Bytes) (dir : List Bytes) (name : Bytes) : List (List Bytes) :=
  ([47] :: dir ++ [name]) ::
    dirs.flatMap fun d => (lineage dir).map fun a => components d ++ a ++ [name]

/-- Directly in the given directories. -/
def inDirs (dirs : List Bytes) (name : Bytes) : List (List Bytes) :=
  dirs.map fun d => components d ++ [name]

/-- A file name without directory. -/
def PlainName (name : Bytes) : Prop := name ≠ [] ∧ 47 ∉ name ∧ name ≠ [46]

end Blazesym.Spec.Dwarf
