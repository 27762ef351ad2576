import Verif.Dwarf.Function
import Verif.Dwarf.Lines

/-! # Model of the units of a file (`src/dwarf/units.rs`, `src/dwarf/unit.rs`) -/

set_option autoImplicit false

namespace Blazesym.Dwarf
open Blazesym.Util

/-- `src/dwarf/unit.rs:52-56` (`UnitRange`). -/
structure UnitRange where
  unitId : Nat
  maxEnd : Nat
  range : Range
  deriving DecidableEq, Repr

/-- `src/dwarf/units.rs:44-53` (`Units`). -/
structure Units where
  unitRanges : List UnitRange
  units : List Unit

/-- The loop of `src/dwarf/units.rs:104-107`: step back to the first set of the same unit. -/
def firstOf (aranges : List ArangeSet) (offset : Nat) : Nat → Nat
  | 0 => 0
  | i + 1 =>
    match aranges[i]? with
    | some a => if a.infoOffset = offset then firstOf aranges offset i else i + 1
    | none => i + 1

/-- `src/dwarf/units.rs:111-121`: ranges that cannot be decoded and empty ones are ignored. -/
def keptRange : Except Err Range → Option Range
  | .ok r => if r.stop - r.start ≠ 0 then some r else none
  | .error _ => none

/-- The loop of `src/dwarf/units.rs:107-129`: the ranges of the sets of a unit that can be decoded
and are not empty. -/
def arangesLoop : List ArangeSet → Except Err (List Range)
  | [] => .ok []
  | a :: rest => do
    let items ← a.items
    let more ← arangesLoop rest
    return items.filterMap keptRange ++ more

/-- `src/dwarf/units.rs:99-130`: the ranges of a unit according to `.debug_aranges`, whose sets are
sorted by unit. -/
def arangesOf (aranges : List ArangeSet) (offset : Nat) : Except Err (List Range) :=
  match binarySearchBy aranges (fun a => compare a.infoOffset offset) with
  | .inr _ => .ok []
  | .inl i =>
    arangesLoop ((aranges.drop (firstOf aranges offset i)).takeWhile (fun a => decide (a.infoOffset = offset)))

/-- The loop of `src/dwarf/units.rs:156-185` over the attributes of the root entry of a unit. -/
def rootAttrs (fail : Option Err) : List Attr → RangeAttrs → Option Nat →
    Except Err (RangeAttrs × Option Nat)
  | [], ra, lang => finish fail (ra, lang)
  | a :: rest, ra, lang => do
    let ra ← ra.update a
    match a.name, a.value with
    | .language, .language v => rootAttrs fail rest ra (some v)
    | _, _ => rootAttrs fail rest ra lang

/-- `src/dwarf/units.rs:203-222`: the ranges of the line sequences of a unit. -/
def lineRanges (σ : Sorter) (main : MainUnit) : List Range :=
  match main.line with
  | none => []
  | some prog =>
    match parseLines σ main.compDir prog with
    | .error _ => []
    | .ok lines => lines.sequences.map (fun s => ⟨s.start, s.stop⟩)

/-- `src/dwarf/units.rs:141-224`: a unit that has no ranges in `.debug_aranges`.  `none` means that
the unit is skipped. -/
def parseUnit (σ : Sorter) (header : Header) : Except Err (Option (List Range × Unit)) :=
  match header.unit with
  | .error _ => .ok none
  | .ok main => do
    match ← main.dies.entries none with
    | [] => .error .invalidDwarf
    | (_, .bad e) :: _ => .error e
    | (_, .null) :: _ => return none
    | (_, .entry e) :: _ =>
      let (ra, lang) ← rootAttrs e.fail e.attrs {} none
      let ranges ← ra.forEachRange
      let ranges := if ranges.isEmpty then lineRanges σ main else ranges
      return some (ranges, { header, deferred := false, lang })

/-- `src/dwarf/units.rs:78-139`: one round of the loop over the unit headers. -/
def parseHeader (σ : Sorter) (aranges : List ArangeSet) (header : Header) :
    Except Err (Option (List Range × Unit)) :=
  if header.inInfo = false then .ok none
  else
    match header.kind with
    | .type => .ok none
    | .partialUnit => .ok (some ([], { header, deferred := true, lang := none }))
    | .compile => do
      let ranges ← arangesOf aranges header.offset
      if ranges.isEmpty then parseUnit σ header
      else return some (ranges, { header, deferred := true, lang := none })

/-- The loop of `src/dwarf/units.rs:76-225`. -/
def headersLoop (σ : Sorter) (aranges : List ArangeSet) : List Header → List UnitRange → List Unit →
    Except Err (List UnitRange × List Unit)
  | [], unitRanges, units => .ok (unitRanges, units)
  | header :: rest, unitRanges, units => do
    match ← parseHeader σ aranges header with
    | none => headersLoop σ aranges rest unitRanges units
    | some (ranges, unit) =>
      headersLoop σ aranges rest
        (unitRanges ++ ranges.map (fun r => { unitId := units.length, maxEnd := 0, range := r }))
        (units ++ [unit])

/-- The loop of `src/dwarf/units.rs:232-236`. -/
def fillMaxEnd : Nat → List UnitRange → List UnitRange
  | _, [] => []
  | m, r :: rest => { r with maxEnd := max m r.range.stop } :: fillMaxEnd (max m r.range.stop) rest

/-- `src/dwarf/units.rs:56-245` (`Units::parse`). -/
def parseUnits (σ : Sorter) (s : Sections) : Except Err Units := do
  let aranges ← finish s.arangesFail s.aranges
  let aranges := σ.sort (fun a b => decide (a.infoOffset ≤ b.infoOffset)) aranges
  let (unitRanges, units) ← headersLoop σ aranges s.headers [] []
  finish s.headersFail ()
  let unitRanges := σ.sort (fun a b => decide (a.range.start ≤ b.range.start)) unitRanges
  return { unitRanges := fillMaxEnd 0 unitRanges, units }

/-- The iterator of `src/dwarf/units.rs:329-351` over the ranges before a position, last first. -/
def takeUnits (lo hi : Nat) : List UnitRange → Except Err (List UnitRange)
  | [] => .ok []
  | r :: rest =>
    if hi < r.range.start then .error .panic
    else if lo < r.maxEnd then do
      let more ← takeUnits lo hi rest
      if r.range.stop ≤ lo ∨ hi ≤ r.range.start then return more
      else return r :: more
    else .ok []

/-- `src/dwarf/units.rs:314-352` (`find_units_range`). -/
def Units.findRanges (u : Units) (lo hi : Nat) : Except Err (List UnitRange) :=
  let pos :=
    match binarySearchBy u.unitRanges (fun r => compare r.range.start hi) with
    | .inl i => i
    | .inr i => i
  takeUnits lo hi (u.unitRanges.take pos).reverse

/-- `self.units[i.unit_id]` for a list of ranges. -/
def Units.ofRanges (u : Units) : List UnitRange → Except Err (List Unit)
  | [] => .ok []
  | r :: rest =>
    match u.units[r.unitId]? with
    | none => .error .panic
    | some unit => do
      let more ← u.ofRanges rest
      return unit :: more

/-- `src/dwarf/units.rs:304-307` (`find_units`). -/
def Units.findUnits (u : Units) (probe : Nat) : Except Err (List Unit) := do
  let hi ← addU64 probe 1
  let ranges ← u.findRanges probe hi
  u.ofRanges ranges

/-- `src/dwarf/unit.rs:180-187` (`parse_functions`). -/
def Unit.functions (σ : Sorter) (units : List Unit) (u : Unit) : Except Err Functions := do
  parseFunctions σ units (← u.unitRef)

/-- `src/dwarf/unit.rs:252-268` (`find_function`). -/
def Unit.findFunction (σ : Sorter) (units : List Unit) (u : Unit) (probe : Nat) :
    Except Err (Option Function) := do
  let functions ← u.functions σ units
  match functions.findAddress probe with
  | none => return none
  | some address =>
    match functions.addresses[address]? with
    | none => .error .panic
    | some a =>
      match functions.functions[a.function]? with
      | none => .error .panic
      | some f => return some f

/-- `src/dwarf/unit.rs:207-227` (`parse_lines`). -/
def Unit.lines (σ : Sorter) (u : Unit) : Except Err (Option Lines) := do
  let main ← u.header.unit
  match main.line with
  | none => return none
  | some prog => return some (← parseLines σ main.compDir prog)

/-- `src/dwarf/unit.rs:229-239` (`find_location`). -/
def Unit.findLocation (σ : Sorter) (u : Unit) (probe : Nat) : Except Err (Option Location) := do
  match ← u.lines σ with
  | some lines => lines.findLocation probe
  | none => return none

/-- `src/dwarf/unit.rs:270-284` (`find_name`). -/
def Unit.findName (σ : Sorter) (units : List Unit) (u : Unit) (name : Bytes) :
    Except Err (Option Function) := do
  let functions ← u.functions σ units
  return functions.functions.find? (fun f => decide (f.name = some name))

/-- The first result of a search over units that is not `none`; failures end it
(`src/dwarf/units.rs:358-363` and `417-422`). -/
def firstSome {α β : Type} (f : α → Except Err (Option β)) : List α → Except Err (Option (β × α))
  | [] => .ok none
  | a :: rest => do
    match ← f a with
    | some b => return some (b, a)
    | none => firstSome f rest

/-- `src/dwarf/units.rs:354-364` (`find_function`). -/
def Units.findFunction (σ : Sorter) (u : Units) (probe : Nat) : Except Err (Option (Function × Unit)) := do
  firstSome (fun unit => unit.findFunction σ u.units probe) (← u.findUnits probe)

/-- `src/dwarf/units.rs:416-423` (`find_location`). -/
def Units.findLocation (σ : Sorter) (u : Units) (probe : Nat) : Except Err (Option Location) := do
  let found ← firstSome (fun unit => unit.findLocation σ probe) (← u.findUnits probe)
  return found.map Prod.fst

/-- `src/dwarf/units.rs:425-432` (`find_name`), with the results collected. -/
def Units.findName (σ : Sorter) (u : Units) (name : Bytes) : List Unit → Except Err (List Function)
  | [] => .ok []
  | unit :: rest => do
    let found ← unit.findName σ u.units name
    let more ← u.findName σ name rest
    return found.toList ++ more

/-- The inner loop of `src/dwarf/units.rs:441-445`: the callback changes a state and says whether to
stop. -/
def callEach {S : Type} (f : S → Function → S × Bool) : List Function → S → S × Bool
  | [], s => (s, false)
  | fn :: rest, s =>
    match f s fn with
    | (s, true) => (s, true)
    | (s, false) => callEach f rest s

/-- `src/dwarf/units.rs:434-448` (`for_each_function`).  The state is returned next to the outcome
because it has been updated even when the iteration fails. -/
def Units.forEachFunction {S : Type} (σ : Sorter) (u : Units) (f : S → Function → S × Bool) :
    List Unit → S → Except Err _root_.Unit × S
  | [], s => (.ok (), s)
  | unit :: rest, s =>
    match unit.functions σ u.units with
    | .error e => (.error e, s)
    | .ok functions =>
      match callEach f functions.functions s with
      | (s, true) => (.ok (), s)
      | (s, false) => u.forEachFunction σ f rest s

/-- `src/dwarf/units.rs:387-408`: the location of an inlined call. -/
def Unit.callLocation (σ : Sorter) (u : Unit) (fn : Inlined) : Except Err (Option Location) :=
  match fn.callFile with
  | none => .ok none
  | some file => do
    match ← u.lines σ with
    | none => return none
    | some lines =>
      match lines.files[file]? with
      | none => return none
      | some (dir, file) =>
        return some { dir, file, line := some fn.callLine, column := some fn.callColumn }

/-- `R::to_string`: the bytes must be UTF-8. -/
def toUtf8 (name : Bytes) : Except Err Bytes :=
  if isUtf8 name then .ok name else .error .invalidDwarf

/-- `name.as_ref().map(|name| name.inner().to_string()).transpose()?.unwrap_or("")`. -/
def nameOrEmpty : Option Bytes → Except Err Bytes
  | none => .ok []
  | some name => toUtf8 name

/-- `src/dwarf/units.rs:379-410`: an item of the iterator. -/
def Unit.inlinedItem (σ : Sorter) (u : Unit) (fn : Inlined) : Except Err (Bytes × Option Location) := do
  let name ← nameOrEmpty fn.name
  let location ← u.callLocation σ fn
  return (name, location)

/-- `src/dwarf/units.rs:367-378`: the inlined functions at an address. -/
def Units.findInlined (σ : Sorter) (u : Units) (probe : Nat) (function : Function) (unit : Unit) :
    Except Err (List Inlined) := do
  let d ← unit.unitRef
  let inlined ← parseInlined σ u.units d function.offset
  inlined.find probe

/-- The loop of `src/dwarf/unit.rs:303-316` for the language of a deferred unit. -/
def langScan (fail : Option Err) : List Attr → Except Err (Option Nat)
  | [] => finish fail none
  | a :: rest =>
    if a.name = .language then
      match a.value with
      | .language v => .ok (some v)
      | _ => .ok none
    else langScan fail rest

/-- `src/dwarf/unit.rs:300-321` (`language`). -/
def Unit.language (u : Unit) : Except Err (Option Nat) := do
  let main ← u.header.unit
  if u.deferred then
    match ← main.dies.entries none with
    | [] => .error .invalidDwarf
    | (_, .bad e) :: _ => .error e
    | (_, .null) :: _ => return none
    | (_, .entry e) :: _ => langScan e.fail e.attrs
  else return u.lang

end Blazesym.Dwarf
