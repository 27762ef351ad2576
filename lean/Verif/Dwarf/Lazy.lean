import Verif.Dwarf.Resolver
import Verif.Elf.Lazy

/-!
# Model of what the units of a file keep (`src/dwarf/unit.rs:60-70`, `src/dwarf/function.rs:344-353`)

A unit keeps what has been decoded of it, in cells that are filled when it is first needed, also with a failure.  The
cells are a state here, and the functions computations on it.  Units are identified by their position, functions by
their position in their unit.  What is decoded is that of `Verif.Dwarf.Units`.
-/

set_option autoImplicit false

namespace Blazesym.Dwarf.Lazy
open Blazesym.Util Blazesym.Symbolize Blazesym.Cache

/-- The cells of `src/dwarf/unit.rs:60-70` (`Unit`), and those of its functions
(`inlined_functions`, `src/dwarf/function.rs:352`). -/
structure UnitCells where
  main : Option (Except Err MainUnit)
  lang : Option (Except Err (Option Nat))
  lines : Option (Except Err Lines)
  funcs : Option (Except Err Functions)
  dwo : Option (Except Err (Option DieUnit))
  inlined : Nat → Option (Except Err InlinedFunctions)

/-- The cells of all units, by position. -/
abbrev Cells := Nat → UnitCells

/-- Change the cells of a unit. -/
def Cells.update (s : Cells) (i : Nat) (f : UnitCells → UnitCells) : Cells :=
  fun j => if j = i then f (s j) else s j

/-- `src/dwarf/unit.rs:97-112` (`new_deferred`). -/
def UnitCells.empty : UnitCells := ⟨none, none, none, none, none, fun _ => none⟩

/-- `src/dwarf/units.rs:188-199`: the root entry of the unit declares code. -/
def declaresRanges (main : MainUnit) : Bool :=
  match main.dies.entries none with
  | .ok ((_, .entry e) :: _) =>
    match rootAttrs e.fail e.attrs {} none with
    | .ok (ra, _) =>
      match ra.forEachRange with
      | .ok l => !l.isEmpty
      | .error _ => false
    | .error _ => false
  | _ => false

/-- `src/dwarf/units.rs:201-222`: the lines that were parsed for their ranges are kept. -/
def startLines (σ : Sorter) (header : Header) : Option (Except Err Lines) :=
  match header.unit with
  | .error _ => none
  | .ok main =>
    match main.line with
    | none => none
    | some prog =>
      if declaresRanges main then none
      else
        match parseLines σ main.compDir prog with
        | .ok lines => some (.ok lines)
        | .error _ => none

/-- The cells of a unit after `Units::parse`: `src/dwarf/unit.rs:97-112` (`new_deferred`) and
`src/dwarf/unit.rs:73-95` (`new`). -/
def startUnit (σ : Sorter) (u : Unit) : UnitCells :=
  if u.deferred then UnitCells.empty
  else { UnitCells.empty with main := some u.header.unit, lang := some (.ok u.lang), lines := startLines σ u.header }

/-- The cells of all units after `Units::parse`. -/
def start (σ : Sorter) (units : List Unit) : Cells := fun i =>
  match units[i]? with
  | some u => startUnit σ u
  | none => UnitCells.empty

variable {α β γ : Type}

/-- `OnceCell::get_or_init` (standard library): what is there is used; otherwise it is computed and stored, unless it
has been stored in the meantime, which panics.  After a panic of the computation nothing is stored. -/
def getOrInit (get : UnitCells → Option (Except Err α)) (set : UnitCells → Except Err α → UnitCells) (i : Nat)
    (f : Act Cells α) : Act Cells α := fun s =>
  match get (s i) with
  | some r => (r, s)
  | none =>
    match f s with
    | (.error .panic, s) => (.error .panic, s)
    | (r, s) =>
      match get (s i) with
      | some _ => (.error .panic, s)
      | none => (r, s.update i fun c => set c r)

/-- `src/dwarf/unit.rs:115-123` (`ensure_dw_unit`). -/
def ensureMain (i : Nat) (u : Unit) : Act Cells MainUnit :=
  getOrInit (·.main) (fun c r => { c with main := some r }) i (Act.lift u.header.unit)

/-- `src/dwarf/unit.rs:151-178` (`unit_ref`).  That there is no split unit is kept, too (lines 170-173). -/
def unitRef (i : Nat) (u : Unit) : Act Cells DieUnit := do
  let main ← ensureMain i u
  match ← getOrInit (·.dwo) (fun c r => { c with dwo := some r }) i (Act.lift main.dwo) with
  | some d => Act.lift (.ok d)
  | none => Act.lift (.ok main.dies)

/-- Units that are used while references are followed (`src/dwarf/units.rs:271-292`, `find_unit`): their cells are
filled, and failures do not change what is kept. -/
def consult (units : List Unit) : List Nat → Cells → Cells
  | [], s => s
  | i :: rest, s =>
    match units[i]? with
    | some u => consult units rest (unitRef i u s).2
    | none => consult units rest s

/-- The units whose entries are referred to by the functions of a unit, and by the inlined functions of a function of a
unit.  Left open: any units in any order. -/
structure Refs where
  functions : Nat → List Nat
  inlined : Nat → Nat → List Nat

/-- Use other units before a result. -/
def consulting (units : List Unit) (ids : List Nat) (r : Except Err α) : Act Cells α := fun s => (r, consult units ids s)

section
variable (σ : Sorter) (refs : Refs)

/-- `src/dwarf/unit.rs:180-187` (`parse_functions`) with `241-250` (`parse_functions_dwarf_and_unit`). -/
def functions (units : List Unit) (i : Nat) (u : Unit) : Act Cells Functions := do
  let d ← unitRef i u
  getOrInit (·.funcs) (fun c r => { c with funcs := some r }) i
    (consulting units (refs.functions i) (parseFunctions σ units d))

/-- `src/dwarf/unit.rs:207-227` (`parse_lines`). -/
def lines (i : Nat) (u : Unit) : Act Cells (Option Lines) := do
  let main ← ensureMain i u
  match main.line with
  | none => Act.lift (.ok none)
  | some prog => do
    let l ← getOrInit (·.lines) (fun c r => { c with lines := some r }) i (Act.lift (parseLines σ main.compDir prog))
    Act.lift (.ok (some l))

/-- `src/dwarf/unit.rs:229-239` (`find_location`). -/
def unitFindLocation (probe i : Nat) (u : Unit) : Act Cells (Option Location) := do
  match ← lines σ i u with
  | some l => Act.lift (l.findLocation probe)
  | none => Act.lift (.ok none)

/-- The function of an address among the functions of a unit, with its position (`src/dwarf/unit.rs:259-266`). -/
def functionAt (fs : Functions) (probe : Nat) : Except Err (Option (Function × Nat)) :=
  match fs.findAddress probe with
  | none => .ok none
  | some address =>
    match fs.addresses[address]? with
    | none => .error .panic
    | some a =>
      match fs.functions[a.function]? with
      | none => .error .panic
      | some f => .ok (some (f, a.function))

/-- `src/dwarf/unit.rs:252-268` (`find_function`). -/
def unitFindFunction (units : List Unit) (probe i : Nat) (u : Unit) : Act Cells (Option (Function × Nat)) := do
  let fs ← functions σ refs units i u
  Act.lift (functionAt fs probe)

/-- `src/dwarf/unit.rs:270-284` (`find_name`). -/
def unitFindName (units : List Unit) (name : Bytes) (i : Nat) (u : Unit) : Act Cells (Option Function) := do
  let fs ← functions σ refs units i u
  Act.lift (.ok (fs.functions.find? fun f => decide (f.name = some name)))

/-- The loop of `src/dwarf/unit.rs:303-316` on the root entry. -/
def scanLang (main : MainUnit) : Except Err (Option Nat) := do
  match ← main.dies.entries none with
  | [] => .error .invalidDwarf
  | (_, .bad e) :: _ => .error e
  | (_, .null) :: _ => return none
  | (_, .entry e) :: _ => langScan e.fail e.attrs

/-- `src/dwarf/unit.rs:300-321` (`language`). -/
def language (i : Nat) (u : Unit) : Act Cells (Option Nat) := do
  let main ← ensureMain i u
  getOrInit (·.lang) (fun c r => { c with lang := some r }) i (Act.lift (scanLang main))

/-- `self.units[i.unit_id]` for a list of ranges, with the positions. -/
def unitsOf (u : Units) : List UnitRange → Except Err (List (Nat × Unit))
  | [] => .ok []
  | r :: rest =>
    match u.units[r.unitId]? with
    | none => .error .panic
    | some unit => do
      let more ← unitsOf u rest
      return (r.unitId, unit) :: more

/-- `src/dwarf/units.rs:304-307` (`find_units`). -/
def findUnits (u : Units) (probe : Nat) : Except Err (List (Nat × Unit)) := do
  let hi ← addU64 probe 1
  let ranges ← u.findRanges probe hi
  unitsOf u ranges

/-- The first result over some units (`src/dwarf/units.rs:358-363` and `417-422`). -/
def firstSome (f : α → Act Cells (Option β)) : List α → Act Cells (Option (β × α))
  | [] => Act.lift (.ok none)
  | a :: rest => do
    match ← f a with
    | some b => Act.lift (.ok (some (b, a)))
    | none => firstSome f rest

/-- `src/dwarf/units.rs:354-364` (`find_function`). -/
def findFunction (u : Units) (probe : Nat) : Act Cells (Option ((Function × Nat) × (Nat × Unit))) := do
  let us ← Act.lift (findUnits u probe)
  firstSome (fun x => unitFindFunction σ refs u.units probe x.1 x.2) us

/-- `src/dwarf/units.rs:416-423` (`find_location`). -/
def findLocation (u : Units) (probe : Nat) : Act Cells (Option Location) := do
  let us ← Act.lift (findUnits u probe)
  let found ← firstSome (fun x => unitFindLocation σ probe x.1 x.2) us
  Act.lift (.ok (found.map Prod.fst))

/-- `src/dwarf/units.rs:425-432` (`find_name`), from a position on, with the results collected. -/
def findName (units : List Unit) (name : Bytes) : Nat → List Unit → Act Cells (List Function)
  | _, [] => Act.lift (.ok [])
  | i, unit :: rest => do
    let found ← unitFindName σ refs units name i unit
    let more ← findName units name (i + 1) rest
    Act.lift (.ok (found.toList ++ more))

/-- `src/dwarf/units.rs:387-408`: the location of an inlined call. -/
def callLocation (i : Nat) (u : Unit) (fn : Inlined) : Act Cells (Option Location) :=
  match fn.callFile with
  | none => Act.lift (.ok none)
  | some file => do
    match ← lines σ i u with
    | none => Act.lift (.ok none)
    | some ls =>
      match ls.files[file]? with
      | none => Act.lift (.ok none)
      | some (dir, file) =>
        Act.lift (.ok (some { dir, file, line := some fn.callLine, column := some fn.callColumn }))

/-- `src/dwarf/units.rs:379-410`: an item of the iterator. -/
def inlinedItem (i : Nat) (u : Unit) (fn : Inlined) : Act Cells (Bytes × Option Location) := do
  let name ← Act.lift (nameOrEmpty fn.name)
  let location ← callLocation σ i u fn
  Act.lift (.ok (name, location))

/-- `src/dwarf/units.rs:367-378` with `src/dwarf/function.rs:382-391` (`parse_inlined_functions`). -/
def findInlined (units : List Unit) (probe : Nat) (f : Function) (k i : Nat) (u : Unit) : Act Cells (List Inlined) := do
  let d ← unitRef i u
  let inlined ← getOrInit (fun c => c.inlined k)
    (fun c r => { c with inlined := fun j => if j = k then some r else c.inlined j }) i
    (consulting units (refs.inlined i k) (parseInlined σ units d f.offset))
  Act.lift (inlined.find probe)

/-- The loop of `src/dwarf/resolver.rs:513-548`. -/
def inlineLoop (i : Nat) (u : Unit) : List Inlined → CodeInfo → List InlinedFn → Act Cells (CodeInfo × List InlinedFn)
  | [], direct, inlined => Act.lift (.ok (direct, inlined))
  | fn :: rest, direct, inlined => do
    let item ← inlinedItem σ i u fn
    let (direct, inlined, codeInfo) := shift direct inlined (item.2.map Location.codeInfo)
    inlineLoop i u rest direct (inlined ++ [{ name := item.1, codeInfo }])

/-- `src/dwarf/resolver.rs:476-563` (`fill_code_info`). -/
def fillCodeInfo (u : Units) (sym : ResolvedSym) (addr : Nat) (opts : FindSymOpts)
    (data : Option ((Function × Nat) × (Nat × Unit))) : Act Cells ResolvedSym :=
  if opts.wantsCodeInfo = false then Act.lift (.ok sym)
  else do
    match ← findLocation σ u addr with
    | none => Act.lift (.ok sym)
    | some location =>
      let direct := location.codeInfo
      if opts.wantsInlined then
        match data with
        | some ((function, k), (i, unit)) => do
          let stack ← findInlined σ refs u.units addr function k i unit
          let x ← inlineLoop σ i unit stack direct []
          Act.lift (.ok { sym with codeInfo := some x.1, inlined := x.2 })
        | none => Act.lift (.ok { sym with codeInfo := some direct, inlined := [] })
      else Act.lift (.ok { sym with codeInfo := some direct, inlined := [] })

/-- `src/dwarf/resolver.rs:354-396` (`find_sym`). -/
def findSym (r : Resolver) (addr : Nat) (opts : FindSymOpts) : Act Cells (Except Reason ResolvedSym) := do
  match ← findFunction σ refs r.units addr with
  | some ((function, k), (i, unit)) => do
    let name ← Act.lift (nameOrEmpty function.name)
    let size ← Act.lift (rangeSize function.range)
    let lang ← language i unit
    let sym ← fillCodeInfo σ refs r.units
      { name, module := r.module, addr := (function.range.map Range.start).getD 0, size,
        lang := srcLang lang, codeInfo := none, inlined := [] } addr opts (some ((function, k), (i, unit)))
    Act.lift (.ok (.ok sym))
  | none => do
    match ← Act.lift (r.elfFindSym addr opts) with
    | .error reason => Act.lift (.ok (.error reason))
    | .ok sym => do
      let sym ← fillCodeInfo σ refs r.units sym addr opts none
      Act.lift (.ok (.ok sym))

/-- `src/dwarf/resolver.rs:404-434` (`find_addr`). -/
def findAddr (r : Resolver) (name : Bytes) (opts : Elf.FindAddrOpts) : Act Cells (List Elf.SymInfo) :=
  if opts.symType = .variable then Act.lift (.error .unsupported)
  else do
    let fs ← findName σ refs r.units.units name 0 r.units.units
    let syms ← Act.lift (r.symInfos opts.fileOffset fs)
    if syms.isEmpty then Act.lift (r.elfFindAddr name opts) else Act.lift (.ok syms)

/-- What the debug information of a file can be asked, besides visiting all functions. -/
inductive Query where
  | findSym (addr : Nat) (opts : FindSymOpts)
  | findAddr (name : Bytes) (opts : Elf.FindAddrOpts)

/-- The answers. -/
inductive Answer where
  | sym (r : Except Reason ResolvedSym)
  | infos (r : List Elf.SymInfo)

/-- Ask. -/
def Query.run (r : Resolver) : Query → Act Cells Answer
  | .findSym addr opts => do Act.lift (.ok (.sym (← Lazy.findSym σ refs r addr opts)))
  | .findAddr name opts => do Act.lift (.ok (.infos (← Lazy.findAddr σ refs r name opts)))

/-- Ask several things in sequence. -/
def runAll (r : Resolver) (qs : List Query) (s : Cells) : Cells :=
  qs.foldl (fun s q => (q.run σ refs r s).2) s

section
variable {S : Type}

/-- The inner loop of `src/dwarf/units.rs:441-445`.  The callback may ask the same resolver things. -/
def callEach (r : Resolver) (f : S → Function → S × Bool) (asks : S → Function → List Query) :
    List Function → S → Cells → (S × Bool) × Cells
  | [], s, cells => ((s, false), cells)
  | fn :: rest, s, cells =>
    match f s fn with
    | (s', true) => ((s', true), runAll σ refs r (asks s fn) cells)
    | (s', false) => callEach r f asks rest s' (runAll σ refs r (asks s fn) cells)

/-- `src/dwarf/units.rs:434-448` (`for_each_function`), from a position on. -/
def forEachFunction (r : Resolver) (f : S → Function → S × Bool) (asks : S → Function → List Query) :
    Nat → List Unit → S → Cells → (Except Err _root_.Unit × S) × Cells
  | _, [], s, cells => ((.ok (), s), cells)
  | i, unit :: rest, s, cells =>
    match functions σ refs r.units.units i unit cells with
    | (.error e, cells) => ((.error e, s), cells)
    | (.ok fs, cells) =>
      match callEach σ refs r f asks fs.functions s cells with
      | ((s, true), cells) => ((.ok (), s), cells)
      | ((s, false), cells) => forEachFunction r f asks (i + 1) rest s cells

/-- `src/dwarf/resolver.rs:436-454` (`for_each`). -/
def forEach (r : Resolver) (opts : Elf.FindAddrOpts) (f : S → Elf.SymInfo → S × Bool)
    (asks : S → Function → List Query) (s : S) (cells : Cells) : (Except Err _root_.Unit × S) × Cells :=
  if opts.symType = .variable then ((.error .unsupported, s), cells)
  else
    match forEachFunction σ refs r (r.visit opts.fileOffset f) (fun s => asks s.1) 0 r.units.units (s, .ok ()) cells with
    | ((.error e, s), cells) => ((.error e, s.1), cells)
    | ((.ok _, s), cells) => ((s.2, s.1), cells)

end
end

end Blazesym.Dwarf.Lazy
