import Verif.Elf.Types
import Verif.Util.Search
import Verif.Util.Reader
import Mathlib.Data.List.Lex

/-!
# Model of symbol lookup in ELF symbol tables (`src/elf/parser.rs`)

The lazily initialised caches are pure functions of the immutable file contents; the model
recomputes them.  Symbols are in their 64 bit form (`to_64bit`).
-/

set_option autoImplicit false

namespace Blazesym.Elf
open Blazesym.Util

/-- `src/elf/parser.rs:384-399` (`SymbolTableCache`): the symbols as they appear in the
file and the string table. -/
structure SymTab where
  syms : List Sym
  strs : Bytes
  deriving DecidableEq, Repr

/-- `src/elf/parser.rs:149-155` (`SymTab`): which table is searched. -/
inductive Table where
  | symtab
  | dynsym
  deriving DecidableEq, Repr

/-- `src/symbolize/mod.rs` (`ResolvedSym`): the fields that vary for ELF. -/
structure ResolvedSym where
  name : Bytes
  addr : Nat
  size : Option Nat
  deriving DecidableEq, Repr

/-- `src/symbolize/mod.rs:459-499` (`Reason`), the two ELF reports. -/
inductive Miss where
  | missingSyms
  | unknownAddr
  deriving DecidableEq, Repr

/-- The NUL terminated string at an offset: `strtab.get(off..)?.read_cstr()?` as used at
`src/elf/parser.rs:136-140, 449-454, 789-793`. -/
def cstrAt (strs : Bytes) (off : Nat) : Except Err Bytes :=
  if off ≤ strs.length then
    match readCstr ⟨off, strs.drop off⟩ with
    | (.ok s, _) => .ok s
    | (.error _, _) => .error .invalidInput
  else .error .invalidInput

/-- `src/elf/parser.rs:135-146` (`symbol_name`). -/
def symbolName (strtab : Bytes) (sym : Sym) : Except Err Bytes :=
  match cstrAt strtab sym.name with
  | .error e => .error e
  | .ok s => if isUtf8 s then .ok s else .error .invalidData

/-- `syms.get(idx).unwrap().value()` at `src/elf/parser.rs:166-170`; indexes are in bounds
(`byAddrIdx_lt`), the default is never used. -/
def valueAt (syms : List Sym) (idx : Nat) : Nat :=
  match syms[idx]? with
  | some s => s.value
  | none => 0

/-- As `valueAt`, for `size()` at `src/elf/parser.rs:425`. -/
def sizeAt (syms : List Sym) (idx : Nat) : Nat :=
  match syms[idx]? with
  | some s => s.size
  | none => 0

/-- `src/elf/parser.rs:188-207` (`matches_addr`). -/
def matchesAddr (table : Table) (addr : Nat) (sym : Sym) : Except Err Bool :=
  if sym.size = 0 then
    match table with
    | .symtab => .ok true
    | .dynsym => .ok (addr == sym.value)
  else
    match addU64 sym.value sym.size with
    | .ok limit => .ok (decide (addr < limit))
    | .error e => .error e

/-- The loop `for idx in &by_addr_idx[idx..]` of `src/elf/parser.rs:175-228`. -/
def findSymLoop (syms : List Sym) (strtab : Bytes) (table : Table) (addr : Nat)
    (type : SymType) : List Nat → Except Err (Option ResolvedSym)
  | [] => .ok none
  | idx :: rest =>
    match syms[idx]? with
    | none => .error .panic
    | some sym =>
      if sym.value > addr then .ok none
      else
        match matchesAddr table addr sym with
        | .error e => .error e
        | .ok m =>
          if sym.matches type && sym.shndx != SHN_UNDEF && m then
            match symbolName strtab sym with
            | .error e => .error e
            | .ok name =>
              .ok (some ⟨name, sym.value, if sym.size = 0 then none else some sym.size⟩)
          else findSymLoop syms strtab table addr type rest

/-- `src/elf/parser.rs:157-232` (`find_sym`). -/
def findSym (syms : List Sym) (byAddrIdx : List Nat) (strtab : Bytes) (table : Table)
    (addr : Nat) (type : SymType) : Except Err (Option ResolvedSym) :=
  match findMatchOrLowerBoundByKey byAddrIdx addr (valueAt syms) with
  | none => .ok none
  | some idx => findSymLoop syms strtab table addr type (byAddrIdx.drop idx)

/-- The comparison of `src/elf/parser.rs:418-427`: by address, equal addresses descending
by size. -/
def addrLe (syms : List Sym) (i j : Nat) : Bool :=
  decide (valueAt syms i < valueAt syms j ∨
    (valueAt syms i = valueAt syms j ∧ sizeAt syms j ≤ sizeAt syms i))

/-- Indexes of the symbols of a supported type, `src/elf/parser.rs:406-414`. -/
def supportedIdx (syms : List Sym) : List Nat :=
  (syms.zipIdx.filter (fun p => p.1.matches .undefined)).map Prod.snd

/-- `src/elf/parser.rs:405-429` (`create_by_addr_idx`). -/
def createByAddrIdx (σ : Sorter) (syms : List Sym) : List Nat :=
  σ.sort (addrLe syms) (supportedIdx syms)

/-- A lookup in a symbol table: `find_sym` with the table's own address index, as called
at `src/elf/parser.rs:1520-1528, 1534-1542, 976-988`. -/
def SymTab.lookup (σ : Sorter) (t : SymTab) (table : Table) (addr : Nat) (type : SymType) :
    Except Err (Option ResolvedSym) :=
  findSym t.syms (createByAddrIdx σ t.syms) t.strs table addr type

/-- `src/elf/parser.rs:358-376` (`SymName`). -/
structure SymName where
  idx : Nat
  len : Nat
  deriving DecidableEq, Repr

/-- `src/elf/parser.rs:366-368` (`bytes`); the range is in bounds by construction. -/
def SymName.bytes (n : SymName) (strs : Bytes) : Bytes := (strs.drop n.idx).take n.len

/-- `src/elf/parser.rs:370-375` (`name`). -/
def SymName.name (n : SymName) (strs : Bytes) : Except Err Bytes :=
  let b := n.bytes strs
  if isUtf8 b then .ok b else .error .invalidData

/-- The order key of a byte string (`[u8]: Ord` is lexicographic). -/
def byteKey (b : Bytes) : List Nat := b.map UInt8.toNat

/-- The filtering, mapping and collecting of `src/elf/parser.rs:443-462`.  The iterator is
lazy, the first failure ends it. -/
def collectNames (strs : Bytes) (filter : Sym → Except Err Bool) :
    List (Sym × Nat) → Except Err (List (SymName × Nat))
  | [] => .ok []
  | (sym, idx) :: rest =>
    match filter sym with
    | .error e => .error e
    | .ok false => collectNames strs filter rest
    | .ok true =>
      match cstrAt strs sym.name with
      | .error e => .error e
      | .ok cname =>
        match collectNames strs filter rest with
        | .error e => .error e
        | .ok l => .ok ((⟨sym.name, cname.length⟩, idx) :: l)

/-- The order of `src/elf/parser.rs:464` (`sort_unstable_by_key`). -/
def nameLe (strs : Bytes) (a b : SymName × Nat) : Bool :=
  decide (byteKey (a.1.bytes strs) ≤ byteKey (b.1.bytes strs))

/-- `src/elf/parser.rs:435-467` (`create_str2sym`). -/
def createStr2sym (σ : Sorter) (t : SymTab) (filter : Sym → Except Err Bool) :
    Except Err (List (SymName × Nat)) :=
  let pairs := (createByAddrIdx σ t.syms).filterMap
    (fun idx => (t.syms[idx]?).map (fun s => (s, idx)))
  match collectNames t.strs filter pairs with
  | .error e => .error e
  | .ok l => .ok (σ.sort (nameLe t.strs) l)

/-- `src/elf/parser.rs:959-963` (`ensure_str2symtab`). -/
def str2symtab (σ : Sorter) (symtab : SymTab) : Except Err (List (SymName × Nat)) :=
  createStr2sym σ symtab (fun _ => .ok true)

/-- The filter of `src/elf/parser.rs:970-990`: symbols for whose address `.symtab` has a
symbol of the same type are dropped.  Errors of the lookup count as "not found", a panic
stays a panic. -/
def notInSymtab (σ : Sorter) (symtab : SymTab) (sym : Sym) : Except Err Bool :=
  match tryFromElfType sym.type with
  | none => .error .panic
  | some ty =>
    match symtab.lookup σ .symtab sym.value ty with
    | .ok (some _) => .ok false
    | .ok none => .ok true
    | .error .panic => .error .panic
    | .error _ => .ok true

/-- `src/elf/parser.rs:965-992` (`ensure_str2dynsym`). -/
def str2dynsym (σ : Sorter) (symtab dynsym : SymTab) : Except Err (List (SymName × Nat)) :=
  createStr2sym σ dynsym (notInSymtab σ symtab)

/-- `src/elf/parser.rs:240-277` (`file_offset`). -/
def fileOffset (shdrs : List Shdr) (sym : Sym) : Except Err (Option Nat) :=
  if sym.shndx ≥ SHN_LORESERVE then .ok none
  else if sym.shndx = SHN_ABS then .ok none
  else
    match shdrs[sym.shndx]? with
    | none => .error .invalidInput
    | some shdr =>
      if shdr.type = SHT_NOBITS then .ok none
      else
        let offset := wrappingAdd (wrappingSub sym.value shdr.addr) shdr.offset
        match addU64 shdr.offset shdr.size with
        | .error e => .error e
        | .ok limit =>
          if offset < limit ∨ (offset = limit ∧ sym.size = 0) then .ok (some offset)
          else .ok none

/-- `src/inspect/mod.rs` (`FindAddrOpts`). -/
structure FindAddrOpts where
  fileOffset : Bool
  symType : SymType

/-- `src/inspect/mod.rs` (`SymInfo`) without the module. -/
structure SymInfo where
  name : Bytes
  addr : Nat
  size : Option Nat
  symType : SymType
  fileOffset : Option Nat
  deriving DecidableEq, Repr

/-- The construction of a `SymInfo` at `src/elf/parser.rs:1297-1312` and `1360-1375`. -/
def mkSymInfo (opts : FindAddrOpts) (shdrs : List Shdr) (strs : Bytes) (name : SymName)
    (sym : Sym) : Except Err SymInfo :=
  match name.name strs with
  | .error e => .error e
  | .ok n =>
    match tryFromElfType sym.type with
    | none => .error .panic
    | some ty =>
      if opts.fileOffset then
        match fileOffset shdrs sym with
        | .error e => .error e
        | .ok off => .ok ⟨n, sym.value, some sym.size, ty, off⟩
      else .ok ⟨n, sym.value, some sym.size, ty, none⟩

/-- The loop of `src/elf/parser.rs:1287-1314`. -/
def findAddrLoop (name : Bytes) (opts : FindAddrOpts) (shdrs : List Shdr) (t : SymTab) :
    List (SymName × Nat) → Except Err (List SymInfo)
  | [] => .ok []
  | (nameVisit, symI) :: rest =>
    if nameVisit.bytes t.strs ≠ name then .ok []
    else
      match t.syms[symI]? with
      | none => .error .invalidInput
      | some sym =>
        if sym.shndx ≠ SHN_UNDEF then
          match mkSymInfo opts shdrs t.strs nameVisit sym with
          | .error e => .error e
          | .ok info =>
            match findAddrLoop name opts shdrs t rest with
            | .error e => .error e
            | .ok l => .ok (info :: l)
        else findAddrLoop name opts shdrs t rest

/-- `src/elf/parser.rs:1273-1319` (`find_addr_impl`). -/
def findAddrImpl (name : Bytes) (opts : FindAddrOpts) (shdrs : List Shdr) (t : SymTab)
    (str2sym : List (SymName × Nat)) : Except Err (List SymInfo) :=
  match findMatchOrLowerBoundByKey str2sym (byteKey name)
      (fun e => byteKey (e.1.bytes t.strs)) with
  | some idx => findAddrLoop name opts shdrs t (str2sym.drop idx)
  | none => .ok []

/-- What the parser has extracted from a file; each part may have failed to parse. -/
structure File where
  shdrs : Except Err (List Shdr)
  phdrs : Except Err (List Phdr)
  symtab : Except Err SymTab
  dynsym : Except Err SymTab

/-- `src/elf/parser.rs:1321-1342` (`find_addr`). -/
def File.findAddr (σ : Sorter) (file : File) (name : Bytes) (opts : FindAddrOpts) :
    Except Err (List SymInfo) := do
  let shdrs ← file.shdrs
  let symtab ← file.symtab
  let names ← str2symtab σ symtab
  let syms ← findAddrImpl name opts shdrs symtab names
  if syms.isEmpty then
    let dynsym ← file.dynsym
    let names ← str2dynsym σ symtab dynsym
    findAddrImpl name opts shdrs dynsym names
  else pure syms

/-- The loop of `src/elf/parser.rs:1354-1383` (`for_each_sym_impl`).  The callback maps its
state and a symbol to a new state and whether it asks to stop (`ControlFlow::Break`).  The
state is returned next to the outcome because it has been updated even when the iteration
fails. -/
def forEachLoop {S : Type} (opts : FindAddrOpts) (shdrs : List Shdr) (t : SymTab)
    (f : S → SymInfo → S × Bool) : List (SymName × Nat) → S → Except Err Unit × S
  | [], s => (.ok (), s)
  | (name, idx) :: rest, s =>
    match t.syms[idx]? with
    | none => (.error .invalidInput, s)
    | some sym =>
      if sym.matches opts.symType && sym.shndx != SHN_UNDEF then
        match mkSymInfo opts shdrs t.strs name sym with
        | .error e => (.error e, s)
        | .ok info =>
          match f s info with
          | (s', true) => (.ok (), s')
          | (s', false) => forEachLoop opts shdrs t f rest s'
      else forEachLoop opts shdrs t f rest s

/-- `src/elf/parser.rs:1344-1384` (`for_each_sym_impl`). -/
def forEachImpl {S : Type} (opts : FindAddrOpts) (shdrs : Except Err (List Shdr)) (t : SymTab)
    (str2sym : List (SymName × Nat)) (f : S → SymInfo → S × Bool) (s : S) :
    Except Err Unit × S :=
  match shdrs with
  | .error e => (.error e, s)
  | .ok shdrs => forEachLoop opts shdrs t f str2sym s

/-- The first half of `src/elf/parser.rs:1387-1401`. -/
def File.forEachSymtab {S : Type} (σ : Sorter) (file : File) (opts : FindAddrOpts)
    (f : S → SymInfo → S × Bool) (s : S) : Except Err Unit × S :=
  match file.symtab with
  | .error e => (.error e, s)
  | .ok symtab =>
    match str2symtab σ symtab with
    | .error e => (.error e, s)
    | .ok names => forEachImpl opts file.shdrs symtab names f s

/-- The second half of `src/elf/parser.rs:1387-1401`. -/
def File.forEachDynsym {S : Type} (σ : Sorter) (file : File) (opts : FindAddrOpts)
    (f : S → SymInfo → S × Bool) (s : S) : Except Err Unit × S :=
  match file.symtab, file.dynsym with
  | .ok symtab, .ok dynsym =>
    match str2dynsym σ symtab dynsym with
    | .error e => (.error e, s)
    | .ok names => forEachImpl opts file.shdrs dynsym names f s
  | .error e, _ => (.error e, s)
  | _, .error e => (.error e, s)

/-- `src/elf/parser.rs:1387-1401` (`for_each`). -/
def File.forEach {S : Type} (σ : Sorter) (file : File) (opts : FindAddrOpts)
    (f : S → SymInfo → S × Bool) (s : S) : Except Err Unit × S :=
  match file.forEachSymtab σ opts f s with
  | (.error e, s') => (.error e, s')
  | (.ok (), s') => file.forEachDynsym σ opts f s'

/-- `src/elf/parser.rs:1513-1556` (`find_sym` of `Symbolize`). -/
def File.findSym (σ : Sorter) (file : File) (addr : Nat) :
    Except Err (Except Miss ResolvedSym) := do
  let symtab ← file.symtab
  match ← symtab.lookup σ .symtab addr .undefined with
  | some sym => pure (.ok sym)
  | none =>
    let dynsym ← file.dynsym
    match ← dynsym.lookup σ .dynsym addr .undefined with
    | some sym => pure (.ok sym)
    | none => pure (.error (if symtab.syms.isEmpty then .missingSyms else .unknownAddr))

/-- The closure of `src/elf/parser.rs:1408-1418`, folded over the program headers
(`find_map`); stops at the first hit, an overflow panics. -/
def findFileOffsetLoop (addr size : Nat) : List Phdr → Except Err (Option Nat)
  | [] => .ok none
  | p :: rest =>
    if p.type = PT_LOAD then
      match addU64 p.vaddr p.filesz with
      | .error e => .error e
      | .ok limit =>
        if (p.vaddr ≤ addr ∧ addr < limit) ∨ (addr = limit ∧ size = 0) then
          match subU addr p.vaddr with
          | .error e => .error e
          | .ok d =>
            match addU64 d p.offset with
            | .error e => .error e
            | .ok o => .ok (some o)
        else findFileOffsetLoop addr size rest
    else findFileOffsetLoop addr size rest

/-- `src/elf/parser.rs:1406-1420` (`find_file_offset`). -/
def File.findFileOffset (file : File) (addr size : Nat) : Except Err (Option Nat) := do
  let phdrs ← file.phdrs
  findFileOffsetLoop addr size phdrs

/-- The closure of `src/elf/parser.rs:1443-1451`, folded over the program headers. -/
def fileOffsetToVirtLoop (offset : Nat) : List Phdr → Except Err (Option Nat)
  | [] => .ok none
  | p :: rest =>
    if p.type = PT_LOAD then
      match addU64 p.offset p.filesz with
      | .error e => .error e
      | .ok limit =>
        if p.offset ≤ offset ∧ offset < limit then
          match addU64 (offset - p.offset) p.vaddr with
          | .error e => .error e
          | .ok a => .ok (some a)
        else fileOffsetToVirtLoop offset rest
    else fileOffsetToVirtLoop offset rest

/-- `src/elf/parser.rs:1441-1454` (`file_offset_to_virt_offset`). -/
def File.fileOffsetToVirtOffset (file : File) (offset : Nat) : Except Err (Option Nat) := do
  let phdrs ← file.phdrs
  fileOffsetToVirtLoop offset phdrs

end Blazesym.Elf
