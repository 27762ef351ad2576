import Verif.Elf.Reloc
import Verif.Session.Act

/-!
# Model of the ELF parser with the parts it keeps (`src/elf/parser.rs`)

`Verif.Elf.Image` and `Verif.Elf.Symtab` compute everything from the contents of the file.  The parser reads a part
when it is first needed and keeps it, in cells that are set at most once.  Here these cells are part of the state.
-/

set_option autoImplicit false

namespace Blazesym.Cache

/-- Computations in sequence, for the `do` notation. -/
instance {S : Type} : Monad (Act S) where
  pure x := Act.lift (.ok x)
  bind := Act.bind

end Blazesym.Cache

namespace Blazesym.Elf.Lazy
open Blazesym.Util Blazesym.Cache

/-- `src/elf/parser.rs:380-403` (`SymbolTableCache`): a table and what is derived from it. -/
structure SymCells where
  tab : SymTab
  byAddr : Option (List Nat)
  str2sym : Option (List (SymName × Nat))

/-- `src/elf/parser.rs:486-504` (`Cache`), without the backend. -/
structure Cells where
  ehdr : Option EhdrExt
  shdrs : Option (List Shdr)
  shstrtab : Option Bytes
  phdrs : Option (List Phdr)
  symtab : Option SymCells
  dynsym : Option SymCells
  sections : Option (List (Option Bytes))
  relocs : Option SectionRelocs

/-- `src/elf/parser.rs:511-523` (`new`). -/
def Cells.new : Cells := ⟨none, none, none, none, none, none, none, none⟩

/-- The cells of one of the two tables. -/
def Cells.table (s : Cells) : Table → Option SymCells
  | .symtab => s.symtab
  | .dynsym => s.dynsym

/-- Change the cells of one of the two tables. -/
def Cells.setTable (s : Cells) (t : SymCells) : Table → Cells
  | .symtab => { s with symtab := some t }
  | .dynsym => { s with dynsym := some t }

variable {α : Type}

/-- `src/util.rs:218-230` (`get_or_try_init_`) on one of the cells.  `get_or_init` keeps what is there already. -/
def getOrTryInit (get : Cells → Option α) (set : Cells → α → Cells) (f : Act Cells α) : Act Cells α := fun s =>
  match get s with
  | some v => (.ok v, s)
  | none =>
    match f s with
    | (.error e, s) => (.error e, s)
    | (.ok v, s) =>
      match get s with
      | some v' => (.ok v', s)
      | none => (.ok v, set s v)

/-- `src/elf/parser.rs:706-708` (`ensure_ehdr`). -/
def ensureEhdr (b : Backend) : Act Cells EhdrExt :=
  getOrTryInit (·.ehdr) (fun s v => { s with ehdr := some v }) (Act.lift (parseEhdr b))

/-- `src/elf/parser.rs:710-726` (`parse_shdrs`). -/
def parseShdrs (b : Backend) : Act Cells (List Shdr) := do
  let h ← ensureEhdr b
  Act.lift (b.readTable shdrLayout h.ehdr.bit32 h.ehdr.shoff h.shnum)

/-- `src/elf/parser.rs:728-730` (`ensure_shdrs`). -/
def ensureShdrs (b : Backend) : Act Cells (List Shdr) :=
  getOrTryInit (·.shdrs) (fun s v => { s with shdrs := some v }) (parseShdrs b)

/-- `src/elf/parser.rs:732-748` (`parse_phdrs`). -/
def parsePhdrs (b : Backend) : Act Cells (List Phdr) := do
  let h ← ensureEhdr b
  Act.lift (b.readTable phdrLayout h.ehdr.bit32 h.ehdr.phoff h.phnum)

/-- `src/elf/parser.rs:750-752` (`ensure_phdrs`). -/
def ensurePhdrs (b : Backend) : Act Cells (List Phdr) :=
  getOrTryInit (·.phdrs) (fun s v => { s with phdrs := some v }) (parsePhdrs b)

/-- `src/elf/parser.rs:526-532` (`section_hdr`). -/
def sectionHdr (b : Backend) (idx : Nat) : Act Cells Shdr := do
  let shdrs ← ensureShdrs b
  match shdrs[idx]? with
  | some s => Act.lift (.ok s)
  | none => Act.lift (.error .invalidInput)

/-- `src/elf/parser.rs:541-550` (`section_data_raw`). -/
def sectionDataRaw (b : Backend) (idx : Nat) : Act Cells Bytes := do
  let shdr ← sectionHdr b idx
  if shdr.type ≠ SHT_NOBITS then Act.lift (b.readSlice shdr.offset 1 1 shdr.size)
  else Act.lift (.ok [])

/-- The cell of a section. -/
def Cells.section (s : Cells) (idx : Nat) : Option (Option Bytes) :=
  match s.sections with
  | some cells => cells[idx]?
  | none => none

/-- Set the cell of a section. -/
def Cells.setSection (s : Cells) (idx : Nat) (data : Bytes) : Cells :=
  { s with sections := s.sections.map fun cells => cells.set idx (some data) }

/-- `src/elf/parser.rs:561-567`: one empty cell for each section. -/
def ensureSections (b : Backend) : Act Cells (List (Option Bytes)) :=
  getOrTryInit (·.sections) (fun s v => { s with sections := some v }) do
    let shdrs ← ensureShdrs b
    Act.lift (.ok (List.replicate shdrs.length none))

/-- `src/elf/parser.rs:572-607`: read a section, and decompress it.  Headers are 32 bit ones if the file is
(`is_32bit`). -/
def readSection (c : Codec) (b : Backend) (shdr : Shdr) : Act Cells Bytes := do
  let data ← Act.lift (b.readSlice shdr.offset 1 1 shdr.size)
  if shdr.flags &&& SHF_COMPRESSED ≠ 0 then
    let h ← ensureEhdr b
    Act.lift (decompress c h.ehdr.bit32 data)
  else Act.lift (.ok data)

/-- `src/elf/parser.rs:557-614` (`section_data`). -/
def sectionData (c : Codec) (b : Backend) (idx : Nat) : Act Cells Bytes := do
  let shdr ← sectionHdr b idx
  if shdr.type ≠ SHT_NOBITS then
    let datas ← ensureSections b
    match datas[idx]? with
    | none => Act.lift (.error .invalidInput)
    | some _ =>
      getOrTryInit (fun s => (s.section idx).join) (fun s v => s.setSection idx v) (readSection c b shdr)
  else Act.lift (.ok [])

/-- `src/elf/parser.rs:773-778` (`parse_shstrtab`). -/
def parseShstrtab (b : Backend) : Act Cells Bytes := do
  let h ← ensureEhdr b
  let i ← Act.lift (shstrndx b h.ehdr)
  sectionDataRaw b i

/-- `src/elf/parser.rs:780-782` (`ensure_shstrtab`). -/
def ensureShstrtab (b : Backend) : Act Cells Bytes :=
  getOrTryInit (·.shstrtab) (fun s v => { s with shstrtab := some v }) (parseShstrtab b)

/-- `src/elf/parser.rs:785-799` (`section_name`). -/
def sectionName (b : Backend) (idx : Nat) : Act Cells Bytes := do
  let shdr ← sectionHdr b idx
  let strtab ← ensureShstrtab b
  let s ← Act.lift (cstrAt strtab shdr.name)
  if isUtf8 s then Act.lift (.ok s) else Act.lift (.error .invalidData)

/-- The loop of `src/elf/parser.rs:815-819`. -/
def findSectionLoop (b : Backend) (name : Bytes) : Nat → Nat → Act Cells (Option Nat)
  | 0, _ => Act.lift (.ok none)
  | n + 1, i => do
    let s ← sectionName b i
    if s = name then Act.lift (.ok (some i)) else findSectionLoop b name n (i + 1)

/-- `src/elf/parser.rs:813-821` (`find_section`). -/
def findSection (b : Backend) (name : Bytes) : Act Cells (Option Nat) := do
  let h ← ensureEhdr b
  findSectionLoop b name (h.shnum - 1) 1

/-- `src/elf/parser.rs:835-883` (`parse_section_data`), with `885-895`. -/
def parseSectionData (l : Layout α) (b : Backend) (idx : Nat) : Act Cells (List α) := do
  let h ← ensureEhdr b
  let shdr ← sectionHdr b idx
  if shdr.type = SHT_NOBITS then Act.lift (.ok [])
  else
    let size := l.size h.ehdr.bit32
    if shdr.size % size ≠ 0 then Act.lift (.error .invalidData)
    else
      let count := shdr.size / size
      if count = 0 then Act.lift (.ok [])
      else Act.lift (b.readTable l h.ehdr.bit32 shdr.offset count)

/-- `src/elf/parser.rs:823-833` (`parse_syms`). -/
def parseSyms (b : Backend) (sec : Bytes) : Act Cells (List Sym) := do
  let _ ← ensureEhdr b
  match ← findSection b sec with
  | some idx => parseSectionData symLayout b idx
  | none => Act.lift (.ok [])

/-- `src/elf/parser.rs:951-957` (`parse_strs`). -/
def parseStrs (b : Backend) (sec : Bytes) : Act Cells Bytes := do
  match ← findSection b sec with
  | some idx => sectionDataRaw b idx
  | none => Act.lift (.ok [])

/-- `src/elf/parser.rs:897-907` (`parse_debugdata`). -/
def parseDebugdata (c : Codec) (b : Backend) : Act Cells Bytes := do
  match ← findSection b nameDebugdata with
  | some idx => do
    let data ← sectionDataRaw b idx
    Act.lift (c.xz data)
  | none => Act.lift (.ok [])

/-- `src/elf/parser.rs:922-925`: the symbols of the embedded file, by a parser of their own. -/
def parseInner (inner : Backend) : Act Cells SymTab := do
  let syms ← parseSyms inner nameSymtab
  let strs ← parseStrs inner nameStrtab
  Act.lift (.ok ⟨syms, strs⟩)

/-- The closure of `src/elf/parser.rs:910-930`. -/
def parseSymtab (c : Codec) (b : Backend) : Act Cells SymTab := do
  let syms ← parseSyms b nameSymtab
  let strs ← parseStrs b nameStrtab
  if syms.isEmpty then
    let data ← parseDebugdata c b
    if data.isEmpty then Act.lift (.ok ⟨syms, strs⟩)
    else Act.lift (parseInner (Backend.mem c.heap data) Cells.new).1
  else Act.lift (.ok ⟨syms, strs⟩)

/-- The closure of `src/elf/parser.rs:934-943`. -/
def parseDynsym (b : Backend) : Act Cells SymTab := do
  let syms ← parseSyms b nameDynsym
  let strs ← parseStrs b nameDynstr
  Act.lift (.ok ⟨syms, strs⟩)

/-- `src/elf/parser.rs:909-931` (`ensure_symtab_cache`). -/
def ensureSymtab (c : Codec) (b : Backend) : Act Cells SymTab :=
  getOrTryInit (fun s => s.symtab.map (·.tab)) (fun s v => { s with symtab := some ⟨v, none, none⟩ }) (parseSymtab c b)

/-- `src/elf/parser.rs:933-944` (`ensure_dynsym_cache`). -/
def ensureDynsym (b : Backend) : Act Cells SymTab :=
  getOrTryInit (fun s => s.dynsym.map (·.tab)) (fun s v => { s with dynsym := some ⟨v, none, none⟩ }) (parseDynsym b)

/-- Set a cell of a table; the table is there, because the caller has a reference to it. -/
def Cells.updateTable (s : Cells) (which : Table) (f : SymCells → SymCells) : Cells :=
  match s.table which with
  | some t => s.setTable (f t) which
  | none => s

/-- `src/elf/parser.rs:431-433` (`ensure_by_addr_idx`) of a table. -/
def ensureByAddr (σ : Sorter) (which : Table) (t : SymTab) : Act Cells (List Nat) :=
  getOrTryInit (fun s => (s.table which).bind (·.byAddr)) (fun s v => s.updateTable which fun t => { t with byAddr := some v })
    (Act.lift (.ok (createByAddrIdx σ t.syms)))

/-- `src/elf/parser.rs:435-467` (`create_str2sym`). -/
def createStr2sym (σ : Sorter) (which : Table) (t : SymTab) (filter : Sym → Except Err Bool) :
    Act Cells (List (SymName × Nat)) := do
  let byAddr ← ensureByAddr σ which t
  let l ← Act.lift (collectNames t.strs filter (byAddr.filterMap fun idx => (t.syms[idx]?).map fun s => (s, idx)))
  Act.lift (.ok (σ.sort (nameLe t.strs) l))

/-- `src/elf/parser.rs:469-482` (`ensure_str2sym`). -/
def ensureStr2sym (σ : Sorter) (which : Table) (t : SymTab) (filter : Sym → Except Err Bool) :
    Act Cells (List (SymName × Nat)) :=
  getOrTryInit (fun s => (s.table which).bind (·.str2sym))
    (fun s v => s.updateTable which fun t => { t with str2sym := some v }) (createStr2sym σ which t filter)

/-- `src/elf/parser.rs:959-963` (`ensure_str2symtab`). -/
def ensureStr2symtab (σ : Sorter) (c : Codec) (b : Backend) : Act Cells (List (SymName × Nat)) := do
  let symtab ← ensureSymtab c b
  ensureStr2sym σ .symtab symtab fun _ => .ok true

/-- The filter of `src/elf/parser.rs:970-990`, with the index that was there before. -/
def notIn (symtab : SymTab) (byAddr : List Nat) (sym : Sym) : Except Err Bool :=
  match tryFromElfType sym.type with
  | none => .error .panic
  | some ty =>
    match findSym symtab.syms byAddr symtab.strs .symtab sym.value ty with
    | .ok (some _) => .ok false
    | .ok none => .ok true
    | .error .panic => .error .panic
    | .error _ => .ok true

/-- `src/elf/parser.rs:965-992` (`ensure_str2dynsym`). -/
def ensureStr2dynsym (σ : Sorter) (c : Codec) (b : Backend) : Act Cells (List (SymName × Nat)) := do
  let symtab ← ensureSymtab c b
  let byAddr ← ensureByAddr σ .symtab symtab
  let dynsym ← ensureDynsym b
  ensureStr2sym σ .dynsym dynsym (notIn symtab byAddr)

/-- `src/elf/parser.rs:1002-1033`. -/
def relocsLoop (b : Backend) : Nat → Nat → SectionRelocs → Act Cells SectionRelocs
  | 0, _, maps => Act.lift (.ok maps)
  | n + 1, i, maps => do
    let shdr ← sectionHdr b i
    if shdr.type = SHT_RELA then
      let syms ← parseSectionData symLayout b shdr.link
      let relas ← parseSectionData relaLayout b i
      relocsLoop b n (i + 1) (maps.update shdr.info (insertRelas syms relas))
    else if shdr.type = SHT_REL then
      let syms ← parseSectionData symLayout b shdr.link
      let rels ← parseSectionData relLayout b i
      relocsLoop b n (i + 1) (maps.update shdr.info (insertRels syms rels))
    else relocsLoop b n (i + 1) maps

/-- `src/elf/parser.rs:994-1037` (`parse_section_relocs`). -/
def parseSectionRelocs (b : Backend) : Act Cells SectionRelocs := do
  let h ← ensureEhdr b
  if h.ehdr.type ≠ ET_REL then Act.lift (.ok SectionRelocs.empty)
  else relocsLoop b h.shnum 0 SectionRelocs.empty

/-- `src/elf/parser.rs:1039-1042` (`ensure_section_relocs`). -/
def ensureSectionRelocs (b : Backend) : Act Cells SectionRelocs :=
  getOrTryInit (·.relocs) (fun s v => { s with relocs := some v }) (parseSectionRelocs b)

/-- `src/elf/parser.rs:1321-1342` (`find_addr`). -/
def findAddr (σ : Sorter) (c : Codec) (b : Backend) (name : Bytes) (opts : FindAddrOpts) : Act Cells (List SymInfo) := do
  let shdrs ← ensureShdrs b
  let symtab ← ensureSymtab c b
  let names ← ensureStr2symtab σ c b
  let syms ← Act.lift (findAddrImpl name opts shdrs symtab names)
  if syms.isEmpty then
    let dynsym ← ensureDynsym b
    let names ← ensureStr2dynsym σ c b
    Act.lift (findAddrImpl name opts shdrs dynsym names)
  else Act.lift (.ok syms)

/-- `src/elf/parser.rs:1513-1556` (`find_sym` of `Symbolize`). -/
def findSymbol (σ : Sorter) (c : Codec) (b : Backend) (addr : Nat) : Act Cells (Except Miss ResolvedSym) := do
  let symtab ← ensureSymtab c b
  let byAddr ← ensureByAddr σ .symtab symtab
  match ← Act.lift (findSym symtab.syms byAddr symtab.strs .symtab addr .undefined) with
  | some sym => Act.lift (.ok (.ok sym))
  | none => do
    let dynsym ← ensureDynsym b
    let byAddr ← ensureByAddr σ .dynsym dynsym
    match ← Act.lift (findSym dynsym.syms byAddr dynsym.strs .dynsym addr .undefined) with
    | some sym => Act.lift (.ok (.ok sym))
    | none => Act.lift (.ok (.error (if symtab.syms.isEmpty then .missingSyms else .unknownAddr)))

/-- `src/elf/parser.rs:1406-1420` (`find_file_offset`). -/
def findFileOffset (b : Backend) (addr size : Nat) : Act Cells (Option Nat) := do
  let phdrs ← ensurePhdrs b
  Act.lift (findFileOffsetLoop addr size phdrs)

/-- `src/elf/parser.rs:1441-1454` (`file_offset_to_virt_offset`). -/
def fileOffsetToVirtOffset (b : Backend) (offset : Nat) : Act Cells (Option Nat) := do
  let phdrs ← ensurePhdrs b
  Act.lift (fileOffsetToVirtLoop offset phdrs)

/-- `src/elf/parser.rs:1490-1496` (`cache`). -/
def cacheAll (σ : Sorter) (c : Codec) (b : Backend) : Act Cells Unit := do
  let _ ← ensureSymtab c b
  let _ ← ensureStr2symtab σ c b
  let _ ← ensureDynsym b
  let _ ← ensureStr2dynsym σ c b
  Act.lift (.ok ())

/-- What a parser can be asked, besides visiting all symbols (`src/elf/parser.rs:1254-1270, 1321, 1406, 1431-1439,
1441, 1490, 1513`). -/
inductive Query where
  | findSym (addr : Nat)
  | findAddr (name : Bytes) (opts : FindAddrOpts)
  | findFileOffset (addr size : Nat)
  | fileOffsetToVirtOffset (offset : Nat)
  | sectionData (idx : Nat)
  | findSection (name : Bytes)
  | sectionRelocs
  | sectionHeaders
  | programHeaders
  | cache

/-- The answers. -/
inductive Answer where
  | sym (r : Except Miss ResolvedSym)
  | infos (r : List SymInfo)
  | offset (r : Option Nat)
  | data (r : Bytes)
  | index (r : Option Nat)
  | relocs (r : SectionRelocs)
  | shdrs (r : List Shdr)
  | phdrs (r : List Phdr)
  | done

/-- Ask the parser. -/
def Query.run (σ : Sorter) (c : Codec) (b : Backend) : Query → Act Cells Answer
  | .findSym addr => do return .sym (← findSymbol σ c b addr)
  | .findAddr name opts => do return .infos (← Lazy.findAddr σ c b name opts)
  | .findFileOffset addr size => do return .offset (← Lazy.findFileOffset b addr size)
  | .fileOffsetToVirtOffset offset => do return .offset (← Lazy.fileOffsetToVirtOffset b offset)
  | .sectionData idx => do return .data (← Lazy.sectionData c b idx)
  | .findSection name => do return .index (← Lazy.findSection b name)
  | .sectionRelocs => do return .relocs (← ensureSectionRelocs b)
  | .sectionHeaders => do return .shdrs (← ensureShdrs b)
  | .programHeaders => do return .phdrs (← ensurePhdrs b)
  | .cache => do
    let _ ← cacheAll σ c b
    return .done

/-- Ask several things in sequence. -/
def runAll (σ : Sorter) (c : Codec) (b : Backend) (qs : List Query) (cells : Cells) : Cells :=
  qs.foldl (fun cells q => (q.run σ c b cells).2) cells

section
variable {S : Type}

/-- The loop of `src/elf/parser.rs:1354-1383` (`for_each_sym_impl`).  The callback may ask the same parser things. -/
def forEachLoop (σ : Sorter) (c : Codec) (b : Backend) (opts : FindAddrOpts) (shdrs : List Shdr) (t : SymTab)
    (f : S → SymInfo → S × Bool) (asks : S → SymInfo → List Query) :
    List (SymName × Nat) → S × Cells → Except Err Unit × (S × Cells)
  | [], s => (.ok (), s)
  | (name, idx) :: rest, (s, cells) =>
    match t.syms[idx]? with
    | none => (.error .invalidInput, s, cells)
    | some sym =>
      if sym.matches opts.symType && sym.shndx != SHN_UNDEF then
        match mkSymInfo opts shdrs t.strs name sym with
        | .error e => (.error e, s, cells)
        | .ok info =>
          match f s info with
          | (s', true) => (.ok (), s', runAll σ c b (asks s info) cells)
          | (s', false) => forEachLoop σ c b opts shdrs t f asks rest (s', runAll σ c b (asks s info) cells)
      else forEachLoop σ c b opts shdrs t f asks rest (s, cells)

/-- Use the cells while visiting symbols. -/
def onCells (a : Act Cells α) : Act (S × Cells) α := Act.zoom (·.2) (fun s t => (s.1, t)) a

/-- `src/elf/parser.rs:1344-1384` (`for_each_sym_impl`). -/
def forEachImpl (σ : Sorter) (c : Codec) (b : Backend) (opts : FindAddrOpts) (t : SymTab)
    (str2sym : List (SymName × Nat)) (f : S → SymInfo → S × Bool) (asks : S → SymInfo → List Query) : Act (S × Cells) Unit := do
  let shdrs ← onCells (ensureShdrs b)
  forEachLoop σ c b opts shdrs t f asks str2sym

/-- `src/elf/parser.rs:1387-1401` (`for_each`). -/
def forEach (σ : Sorter) (c : Codec) (b : Backend) (opts : FindAddrOpts)
    (f : S → SymInfo → S × Bool) (asks : S → SymInfo → List Query) : Act (S × Cells) Unit := do
  let symtab ← onCells (ensureSymtab c b)
  let names ← onCells (ensureStr2symtab σ c b)
  let () ← forEachImpl σ c b opts symtab names f asks
  let dynsym ← onCells (ensureDynsym b)
  let names ← onCells (ensureStr2dynsym σ c b)
  forEachImpl σ c b opts dynsym names f asks

end

end Blazesym.Elf.Lazy
