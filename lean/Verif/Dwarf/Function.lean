import Verif.Dwarf.Data
import Verif.Util.Search
import Verif.Util.Sort

/-! # Model of functions and inlined functions (`src/dwarf/function.rs`, `src/dwarf/range.rs`) -/

set_option autoImplicit false

namespace Blazesym.Dwarf
open Blazesym.Util

/-! ### Address ranges -/

/-- `src/dwarf/range.rs:28-33` (`RangeAttributes`). -/
structure RangeAttrs where
  lowPc : Option Nat := none
  highPc : Option Nat := none
  size : Option Nat := none
  ranges : Option RangeList := none

/-- The treatment of `DW_AT_low_pc`, `DW_AT_high_pc` and `DW_AT_ranges`, identical in
`src/dwarf/function.rs:146-163`, `src/dwarf/function.rs:475-492` and
`src/dwarf/units.rs:159-177`. -/
def RangeAttrs.update (ra : RangeAttrs) (a : Attr) : Except Err RangeAttrs :=
  match a.name with
  | .lowPc =>
    match a.value with
    | .addr v => .ok { ra with lowPc := some v }
    | .addrIndex (.ok v) => .ok { ra with lowPc := some v }
    | .addrIndex (.error e) => .error e
    | _ => .ok ra
  | .highPc =>
    match a.value with
    | .addr v => .ok { ra with highPc := some v }
    | .addrIndex (.ok v) => .ok { ra with highPc := some v }
    | .addrIndex (.error e) => .error e
    | .udata v => .ok { ra with size := some v }
    | _ => .ok ra
  | .ranges =>
    match a.value with
    | .rangeList (.ok l) => .ok { ra with ranges := some l }
    | .rangeList (.error e) => .error e
    | _ => .ok { ra with ranges := none }
  | _ => .ok ra

/-- The ranges handed to the callback by `src/dwarf/range.rs:47-74` (`for_each_range`): those that
are not empty. -/
def RangeAttrs.forEachRange (ra : RangeAttrs) : Except Err (List Range) :=
  match ra.ranges with
  | some l => finish l.fail (l.items.filter (fun r => decide (r.start < r.stop)))
  | none =>
    match ra.lowPc, ra.highPc, ra.size with
    | some start, some stop, _ => .ok ([⟨start, stop⟩].filter (fun r => decide (r.start < r.stop)))
    | some start, none, some size =>
      match addU64 start size with
      | .error e => .error e
      | .ok stop => .ok ([⟨start, stop⟩].filter (fun r => decide (r.start < r.stop)))
    | _, _, _ => .ok []

/-- `src/dwarf/range.rs:76-87` (`bounds`). -/
def RangeAttrs.bounds (ra : RangeAttrs) : Except Err (Option Range) :=
  match ra.lowPc, ra.highPc, ra.size with
  | some start, some stop, _ => .ok (some ⟨start, stop⟩)
  | some start, none, some size =>
    match addU64 start size with
    | .error e => .error e
    | .ok stop => .ok (some ⟨start, stop⟩)
  | _, _, _ => .ok none

/-! ### Names -/

/-- A unit as kept by `src/dwarf/unit.rs:60-72` (`Unit`).  What it computes lazily is computed on
demand in the model.  `deferred` distinguishes `Unit::new_deferred` from `Unit::new`, which is given
the language. -/
structure Unit where
  header : Header
  deferred : Bool
  lang : Option Nat

/-- `src/dwarf/unit.rs:147-178` (`unit_ref`). -/
def Unit.unitRef (u : Unit) : Except Err DieUnit := do
  let main ← u.header.unit
  match ← main.dwo with
  | some d => return d
  | none => return main.dies

/-- `src/dwarf/units.rs:271-292` (`find_unit`). -/
def findUnit (units : List Unit) (offset : Nat) : Except Err (DieUnit × Nat) :=
  match binarySearchBy units (fun u => compare u.header.offset offset) with
  | .inl _ => .error .invalidDwarf
  | .inr 0 => .error .invalidDwarf
  | .inr (i + 1) =>
    match units[i]? with
    | none => .error .panic
    | some u =>
      if u.header.offset ≤ offset ∧ u.header.valid (offset - u.header.offset) = true then do
        let d ← u.unitRef
        return (d, offset - u.header.offset)
      else .error .invalidDwarf

/-- The outcome of scanning the attributes of an entry for a name. -/
inductive NameScan where
  | found (name : Option Bytes)
  | follow (value : AttrValue)

/-- The loop of `src/dwarf/function.rs:58-86` over the attributes of an entry. -/
def nameScan (fail : Option Err) : List Attr → Option Bytes → Option AttrValue → Except Err NameScan
  | [], some name, _ => finish fail (.found (some name))
  | [], none, some next => finish fail (.follow next)
  | [], none, none => finish fail (.found none)
  | a :: rest, name, next =>
    match a.name, a.value with
    | .linkageName, .string v => .ok (.found (some v))
    | .mipsLinkageName, .string v => .ok (.found (some v))
    | .name, .string v => nameScan fail rest (some v) next
    | .abstractOrigin, v => nameScan fail rest name (some v)
    | .specification, v => nameScan fail rest name (some v)
    | _, _ => nameScan fail rest name next

/-- The first entry of a stream (`src/dwarf/function.rs:49-54`). -/
def firstEntry : Stream → Except Err Entry
  | [] => .error .invalidDwarf
  | (_, .null) :: _ => .error .invalidDwarf
  | (_, .bad e) :: _ => .error e
  | (_, .entry e) :: _ => .ok e

/-- The entry a value refers to (`src/dwarf/function.rs:100-108`). -/
def refTarget (units : List Unit) (unit : DieUnit) : AttrValue → Except Err (Option (DieUnit × Nat))
  | .unitRef offset => .ok (some (unit, offset))
  | .infoRef offset => (findUnit units offset).map some
  | _ => .ok none

/-- `src/dwarf/function.rs:90-109` (`name_attr`) with `src/dwarf/function.rs:43-87` (`name_entry`):
the number is the recursion limit. -/
def nameAttr (units : List Unit) : Nat → DieUnit → AttrValue → Except Err (Option Bytes)
  | 0, _, _ => .ok none
  | limit + 1, unit, value => do
    match ← refTarget units unit value with
    | none => return none
    | some (unit, offset) =>
      let entry ← firstEntry (← unit.entries (some offset))
      match ← nameScan entry.fail entry.attrs none none with
      | .found name => return name
      | .follow next => nameAttr units limit unit next

/-- The treatment of names, identical in `src/dwarf/function.rs:164-178` and
`src/dwarf/function.rs:460-474`. -/
def nameUpdate (units : List Unit) (unit : DieUnit) (name : Option Bytes) (a : Attr) :
    Except Err (Option Bytes) :=
  match a.name with
  | .linkageName | .mipsLinkageName =>
    match a.value with
    | .string v => .ok (some v)
    | _ => .ok name
  | .name =>
    match name, a.value with
    | none, .string v => .ok (some v)
    | none, _ => .ok none
    | some n, _ => .ok (some n)
  | .abstractOrigin | .specification =>
    match name with
    | none => nameAttr units 16 unit a.value
    | some n => .ok (some n)
  | _ => .ok name

/-! ### Functions -/

/-- `src/dwarf/function.rs:345-353` (`Function`). -/
structure Function where
  offset : Nat
  name : Option Bytes
  range : Option Range
  deriving DecidableEq, Repr

/-- `src/dwarf/function.rs:338-342` (`FunctionAddress`). -/
structure FunctionAddress where
  range : Range
  function : Nat
  deriving DecidableEq, Repr

/-- `src/dwarf/function.rs:435-440` (`Functions`). -/
structure Functions where
  functions : List Function
  addresses : List FunctionAddress
  deriving DecidableEq, Repr

/-- The loop of `src/dwarf/function.rs:456-496` over the attributes of a function. -/
def functionAttrs (units : List Unit) (unit : DieUnit) (fail : Option Err) :
    List Attr → Option Bytes → RangeAttrs → Except Err (Option Bytes × RangeAttrs)
  | [], name, ra => finish fail (name, ra)
  | a :: rest, name, ra => do
    let name ← nameUpdate units unit name a
    let ra ← ra.update a
    functionAttrs units unit fail rest name ra

/-- The loop of `src/dwarf/function.rs:450-519`. -/
def functionsLoop (units : List Unit) (unit : DieUnit) : Stream → List Function →
    List FunctionAddress → Except Err (List Function × List FunctionAddress)
  | [], functions, addresses => .ok (functions, addresses)
  | (_, .null) :: rest, functions, addresses => functionsLoop units unit rest functions addresses
  | (_, .bad e) :: _, _, _ => .error e
  | (offset, .entry e) :: rest, functions, addresses =>
    if e.tag = .subprogram then do
      let (name, ra) ← functionAttrs units unit e.fail e.attrs none {}
      let ranges ← ra.forEachRange
      let addresses := addresses ++ ranges.map (fun r => ⟨r, functions.length⟩)
      if ranges.isEmpty then functionsLoop units unit rest functions addresses
      else do
        let bounds ← ra.bounds
        functionsLoop units unit rest (functions ++ [⟨offset, name, bounds⟩]) addresses
    else do
      finish e.fail ()
      functionsLoop units unit rest functions addresses

/-- `src/dwarf/function.rs:443-535` (`Functions::parse`). -/
def parseFunctions (σ : Sorter) (units : List Unit) (unit : DieUnit) : Except Err Functions := do
  let stream ← unit.entries none
  let (functions, addresses) ← functionsLoop units unit stream [] []
  return { functions, addresses := σ.sort (fun a b => decide (a.range.start ≤ b.range.start)) addresses }

/-- The comparison of `src/dwarf/function.rs:552-560`. -/
def rangeCmp (probe : Nat) (r : Range) : Ordering :=
  if probe < r.start then .gt else if r.stop ≤ probe then .lt else .eq

/-- `src/dwarf/function.rs:550-562` (`find_address`). -/
def Functions.findAddress (f : Functions) (probe : Nat) : Option Nat :=
  match binarySearchBy f.addresses (fun a => rangeCmp probe a.range) with
  | .inl i => some i
  | .inr _ => none

/-! ### Inlined functions -/

/-- `src/dwarf/function.rs:124-129` (`InlinedFunction`). -/
structure Inlined where
  name : Option Bytes
  callFile : Option Nat
  callLine : Nat
  callColumn : Nat
  deriving DecidableEq, Repr

/-- `src/dwarf/function.rs:228-233` (`InlinedFunctionAddress`). -/
structure InlinedAddress where
  range : Range
  callDepth : Nat
  function : Nat
  deriving DecidableEq, Repr

/-- `src/dwarf/function.rs:236-243` (`InlinedFunctions`). -/
structure InlinedFunctions where
  functions : List Inlined
  addresses : List InlinedAddress
  deriving DecidableEq, Repr

/-- `gimli::Attribute::udata_value().unwrap_or(0) as u32`. -/
def udata32 : AttrValue → Nat
  | .udata v => v % u32Size
  | _ => 0

/-- `src/dwarf/function.rs:179-202`: the attributes of the call site. -/
def callUpdate (version : Nat) (fn : Inlined) (a : Attr) : Inlined :=
  match a.name with
  | .callFile =>
    match a.value with
    | .fileIndex fi => if 0 < fi ∨ 5 ≤ version then { fn with callFile := some fi } else fn
    | _ => fn
  | .callLine => { fn with callLine := udata32 a.value }
  | .callColumn => { fn with callColumn := udata32 a.value }
  | _ => fn

/-- The loop of `src/dwarf/function.rs:143-205` over the attributes of an inlined function. -/
def inlinedAttrs (units : List Unit) (unit : DieUnit) (fail : Option Err) :
    List Attr → Inlined → RangeAttrs → Except Err (Inlined × RangeAttrs)
  | [], fn, ra => finish fail (fn, ra)
  | a :: rest, fn, ra => do
    let name ← nameUpdate units unit fn.name a
    let ra ← ra.update a
    inlinedAttrs units unit fail rest (callUpdate unit.version { fn with name } a) ra

/-- An activation of `src/dwarf/function.rs:356-380` (`parse_children`), with the inlined depth, or
of `src/dwarf/function.rs:394-407` (`skip`), which has none. -/
structure Frame where
  depth : Int
  inlinedDepth : Option Nat
  deriving DecidableEq, Repr

/-- `src/dwarf/function.rs:356-380` (`parse_children`), with `src/dwarf/function.rs:132-224`
(`InlinedFunction::parse`), which calls it, and `src/dwarf/function.rs:394-407` (`skip`).  The
activations of the recursive functions are kept in a stack, innermost first; those whose depth has
been reached return. -/
def childrenLoop (units : List Unit) (unit : DieUnit) : Stream → Int → List Frame →
    InlinedFunctions → Except Err InlinedFunctions
  | stream, depth, frames, acc =>
    match frames.dropWhile (fun f => decide (depth ≤ f.depth)) with
    | [] => .ok acc
    | frame :: frames =>
      match stream with
      | [] => .error .invalidDwarf
      | (_, .bad e) :: _ => .error e
      | (_, .null) :: rest => childrenLoop units unit rest (Raw.depth depth .null) (frame :: frames) acc
      | (_, .entry e) :: rest =>
        let next := Raw.depth depth (.entry e)
        match frame.inlinedDepth with
        | none => do
          finish e.fail ()
          childrenLoop units unit rest next (frame :: frames) acc
        | some inlinedDepth =>
          match e.tag with
          | .subprogram => do
            finish e.fail ()
            childrenLoop units unit rest next (⟨depth, none⟩ :: frame :: frames) acc
          | .inlinedSubroutine => do
            let (fn, ra) ← inlinedAttrs units unit e.fail e.attrs ⟨none, none, 0, 0⟩ {}
            let ranges ← ra.forEachRange
            let acc : InlinedFunctions :=
              { functions := acc.functions ++ [fn],
                addresses := acc.addresses ++ ranges.map (fun r => ⟨r, inlinedDepth, acc.functions.length⟩) }
            childrenLoop units unit rest next (⟨depth, some (inlinedDepth + 1)⟩ :: frame :: frames) acc
          | .other => do
            finish e.fail ()
            childrenLoop units unit rest next (frame :: frames) acc

/-- The order of `src/dwarf/function.rs:282-284`. -/
def inlinedLe (a b : InlinedAddress) : Bool :=
  decide (a.callDepth < b.callDepth ∨ (a.callDepth = b.callDepth ∧ a.range.start ≤ b.range.start))

/-- `src/dwarf/function.rs:246-290` (`InlinedFunctions::parse`). -/
def parseInlined (σ : Sorter) (units : List Unit) (unit : DieUnit) (offset : Nat) :
    Except Err InlinedFunctions := do
  match ← unit.entries (some offset) with
  | [] => .error .invalidDwarf
  | (_, .bad e) :: _ => .error e
  | (_, .null) :: _ => .error .panic
  | (_, .entry e) :: rest =>
    if e.tag = .subprogram then do
      finish e.fail ()
      let acc ← childrenLoop units unit rest (Raw.depth 0 (.entry e)) [⟨0, some 0⟩] ⟨[], []⟩
      return { acc with addresses := σ.sort inlinedLe acc.addresses }
    else .error .panic

/-- The comparison of `src/dwarf/function.rs:306-318`. -/
def inlinedCmp (depth probe : Nat) (a : InlinedAddress) : Ordering :=
  if depth < a.callDepth then .gt
  else if a.callDepth < depth then .lt
  else if probe < a.range.start then .gt
  else if a.range.stop ≤ probe then .lt
  else .eq

/-- The loop of `src/dwarf/function.rs:300-326`; `depth` is the number of functions found so far. -/
def InlinedFunctions.findLoop (f : InlinedFunctions) (probe : Nat) (addresses : List InlinedAddress)
    (found : List Inlined) : Except Err (List Inlined) :=
  match binarySearchBy addresses (inlinedCmp found.length probe) with
  | .inr _ => .ok found
  | .inl i =>
    match h : addresses[i]? with
    | none => .error .panic
    | some a =>
      match f.functions[a.function]? with
      | none => .error .panic
      | some fn => f.findLoop probe (addresses.drop (i + 1)) (found ++ [fn])
termination_by addresses.length
decreasing_by
  have := (List.getElem?_eq_some_iff.mp h).1
  simp only [List.length_drop]
  omega

/-- `src/dwarf/function.rs:293-328` (`find_inlined_functions`): outermost first. -/
def InlinedFunctions.find (f : InlinedFunctions) (probe : Nat) : Except Err (List Inlined) :=
  f.findLoop probe f.addresses []

end Blazesym.Dwarf
