import Verif.Basic

/-!
# DWARF data as handed out by the `gimli` library

Decoding DWARF bytes is done by the `gimli` library, which is not part of this code base.  The
model starts from what `gimli` returns: streams of debugging information entries, attributes and
their values, range lists, rows of line programs and headers of units.  Every one of these can
fail at any point; the failure is part of the data.
-/

set_option autoImplicit false

namespace Blazesym.Dwarf

/-- `gimli::Range`: the addresses from `start` up to, but not including, `stop`. -/
structure Range where
  start : Nat
  stop : Nat
  deriving DecidableEq, Repr

/-- What iterating over a range list yields (`unit.ranges(..)?`, then `next()?`): some ranges and
then the end of the list or a failure. -/
structure RangeList where
  items : List Range
  fail : Option Err
  deriving DecidableEq, Repr

/-- The attribute names the code looks at (`gimli::DW_AT_*`). -/
inductive AttrName where
  | lowPc
  | highPc
  | ranges
  | linkageName
  | mipsLinkageName
  | name
  | abstractOrigin
  | specification
  | callFile
  | callLine
  | callColumn
  | language
  | other
  deriving DecidableEq, Repr

/-- Attribute values (`gimli::AttributeValue`), each together with the outcome of the `gimli` call
the code makes on it. -/
inductive AttrValue where
  /-- `Addr`. -/
  | addr (v : Nat)
  /-- `DebugAddrIndex`, with the outcome of `unit.address(index)`. -/
  | addrIndex (v : Except Err Nat)
  /-- `Udata`; also the only values for which `udata_value()` is `Some`. -/
  | udata (v : Nat)
  /-- A reference to a range list, with the outcome of `unit.attr_ranges_offset(value)`. -/
  | rangeList (v : Except Err RangeList)
  /-- A value for which `unit.attr_string(value)` is `Ok`. -/
  | string (v : Bytes)
  /-- `FileIndex`. -/
  | fileIndex (v : Nat)
  /-- `Language`. -/
  | language (v : Nat)
  /-- `UnitRef`: an entry of the same unit. -/
  | unitRef (offset : Nat)
  /-- `DebugInfoRef`: an entry of any unit. -/
  | infoRef (offset : Nat)
  | other
  deriving Repr

structure Attr where
  name : AttrName
  value : AttrValue
  deriving Repr

/-- The tags the code looks at (`gimli::DW_TAG_*`). -/
inductive Tag where
  | subprogram
  | inlinedSubroutine
  | other
  deriving DecidableEq, Repr

/-- A debugging information entry: its attributes in order; `fail` is set if the attribute after
the listed ones cannot be decoded.  (Simplification: reading and skipping attributes fail alike.) -/
structure Entry where
  tag : Tag
  hasChildren : Bool
  attrs : List Attr
  fail : Option Err
  deriving Repr

/-- What `EntriesRaw::read_abbreviation` finds: the end of a list of children, an entry, or
something that cannot be decoded. -/
inductive Raw where
  | null
  | entry (e : Entry)
  | bad (err : Err)
  deriving Repr

/-- `gimli::EntriesRaw`: the offsets and contents of the following entries.  Its depth starts at
zero, increases after an entry with children and decreases after a null entry. -/
abbrev Stream := List (Nat × Raw)

/-- The depth after an entry (`gimli::EntriesRaw::next_depth`). -/
def Raw.depth (d : Int) : Raw → Int
  | .null => d - 1
  | .entry e => if e.hasChildren then d + 1 else d
  | .bad _ => d

/-- The debugging information entries of a unit (`gimli::UnitRef`): `entries` is
`entries_raw(offset)`. -/
structure DieUnit where
  version : Nat
  entries : Option Nat → Except Err Stream

/-- A row of a line program (`gimli::LineRow`).  A line of zero stands for no line, a column of
zero for the left edge. -/
structure Row where
  address : Nat
  fileIndex : Nat
  line : Nat
  column : Nat
  endSequence : Bool
  deriving DecidableEq, Repr

/-- `gimli::FileEntry`, with the outcome of looking up its directory and of decoding the strings. -/
structure FileEntry where
  directoryIndex : Nat
  directory : Option (Except Err Bytes)
  pathName : Except Err Bytes
  deriving Repr

/-- A line program: the rows until the end of the program or a failure, and the files of its header
(`file0` is the file with index zero, `files` are those from index one on). -/
structure LineProgram where
  rows : List Row
  fail : Option Err
  file0 : Option FileEntry
  files : List FileEntry
  deriving Repr

/-- A unit (`gimli::Unit`): its entries, its compilation directory and line program, and the
outcome of looking for a split unit with further entries (`src/dwarf/unit.rs:120-145`,
`process_dwo`). -/
structure MainUnit where
  dies : DieUnit
  compDir : Option Bytes
  line : Option LineProgram
  dwo : Except Err (Option DieUnit)

/-- `gimli::UnitType`, as far as it is distinguished. -/
inductive UnitKind where
  | type
  | partialUnit
  | compile
  deriving DecidableEq, Repr

/-- A unit header (`gimli::UnitHeader`) with the outcome of decoding the unit
(`gimli::Dwarf::unit`). -/
structure Header where
  /-- The unit is in `.debug_info`. -/
  inInfo : Bool
  offset : Nat
  kind : UnitKind
  /-- The offsets, relative to the unit, at which it can have entries. -/
  valid : Nat → Bool
  unit : Except Err MainUnit

/-- A set of address ranges in `.debug_aranges`: the offset of the unit and the outcome of decoding
the set; each range can fail on its own. -/
structure ArangeSet where
  infoOffset : Nat
  items : Except Err (List (Except Err Range))

/-- All DWARF data of a file (`gimli::Dwarf`).  The lists end in a failure if `.debug_aranges` or
`.debug_info` cannot be decoded to the end. -/
structure Sections where
  aranges : List ArangeSet
  arangesFail : Option Err
  headers : List Header
  headersFail : Option Err

/-- The end of an iteration that may fail. -/
def finish {α : Type} (fail : Option Err) (a : α) : Except Err α :=
  match fail with
  | some e => .error e
  | none => .ok a

end Blazesym.Dwarf
