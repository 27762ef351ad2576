import Verif.Dwarf.Resolver
import Verif.Dwarf.DebugLink
import Verif.Elf.Notes
import Verif.Session.Resolve
import Verif.CApi.Inspect
import Verif.Symbolize.Convert

/-!
# Model of the creation of a resolver with debug information (`src/dwarf/resolver.rs`)

The files it needs are looked up through the cache, or opened directly; both are answers to a
`Prog`.  Reading the debug information itself is the work of the `gimli` crate, the checksum is that
of the `crc32fast` crate; they are arbitrary functions.
-/

set_option autoImplicit false

namespace Blazesym.Dwarf
open Blazesym.Util Blazesym.Symbolize Blazesym.Cache

/-- `src/elf/parser.rs:1137-1151` (`ElfParser`): the name of the module and the mapped file. -/
structure ElfParser where
  module : Option Bytes
  image : Elf.Backend

/-- What is done by other libraries. -/
structure Tools where
  σ : Sorter
  codec : Elf.Codec
  /-- `crc32fast::hash`. -/
  crc32 : Bytes → Nat
  /-- `src/dwarf/resolver.rs:256-288`: loading the sections of a file and, if there is one, of the
  package, and `Units::parse`. -/
  load : Elf.Backend → Option Elf.Backend → Except Err Units
  /-- Demangling, where it is not up to the settings of a symbolizer. -/
  demangler : Demangler

/-- `src/elf/parser.rs:1193-1212` (`from_file`).  A mapping starts at a page boundary; which one makes
no difference.  An opened file is what mapping it yields. -/
def elfParse (path : Bytes) (file : Except Err Bytes) : Except Err ElfParser :=
  match file with
  | .error e => .error e
  | .ok data => .ok ⟨some path, .mem 4096 data⟩

/-- What the parser extracts from the file. -/
def ElfParser.file (t : Tools) (p : ElfParser) : Elf.File := Elf.File.ofImage t.codec p.image

/-- The conversion of what `File.findSym` reports. -/
def missReason : Elf.Miss → Reason
  | .missingSyms => .missingSyms
  | .unknownAddr => .unknownAddr

/-- `src/elf/parser.rs:1513-1556` (`find_sym`), with the module (`:205-218`). -/
def ElfParser.findSym (t : Tools) (p : ElfParser) : SymFn := fun addr _ =>
  match (p.file t).findSym t.σ addr with
  | .error e => .error e
  | .ok (.error miss) => .ok (.error (missReason miss))
  | .ok (.ok sym) =>
    .ok (.ok { name := sym.name, module := p.module, addr := sym.addr, size := sym.size,
               lang := .unknown, codeInfo := none, inlined := [] })

/-- `src/elf/parser.rs:1321-1342` (`find_addr`), without the module. -/
def ElfParser.findAddrInfos (t : Tools) (p : ElfParser) (name : Bytes) (opts : Elf.FindAddrOpts) :
    Except Err (List Elf.SymInfo) := (p.file t).findAddr t.σ name opts

/-- The symbol information of `src/inspect/mod.rs:36-60`, with a module. -/
def withModule (module : Option Bytes) (i : Elf.SymInfo) : CApi.SymInfo :=
  { name := i.name, addr := i.addr, size := i.size, symType := i.symType, fileOffset := i.fileOffset,
    module }

/-- `src/elf/parser.rs:1321-1342` (`find_addr`), with the module (`:1310`). -/
def ElfParser.findAddr (t : Tools) (p : ElfParser) (name : Bytes) (opts : Elf.FindAddrOpts) :
    Except Err (List CApi.SymInfo) :=
  match p.findAddrInfos t name opts with
  | .error e => .error e
  | .ok infos => .ok (infos.map (withModule p.module))

/-- `src/elf/parser.rs:1387-1401` (`for_each`); no module is reported (`:1374`). -/
def ElfParser.forEach {S : Type} (t : Tools) (p : ElfParser) (opts : Elf.FindAddrOpts)
    (f : S → CApi.SymInfo → S × Bool) (s : S) : Except Err _root_.Unit × S :=
  (p.file t).forEach t.σ opts (fun s i => f s (withModule none i)) s

/-- `src/elf/parser.rs` (`find_file_offset`). -/
def ElfParser.findFileOffset (t : Tools) (p : ElfParser) (addr size : Nat) : Except Err (Option Nat) :=
  (p.file t).findFileOffset addr size

/-- `src/dwarf/resolver.rs:139-186` (`try_deref_debug_link`). -/
def derefDebugLink (t : Tools) (fs : Files) (dirs : List Bytes) (parser : ElfParser) :
    Prog Bytes ElfParser (Option ElfParser) :=
  match Elf.readDebugLink t.codec parser.image with
  | .error e => .done (.error e)
  | .ok none => .done (.ok none)
  | .ok (some (file, checksum)) =>
    match findDebugFile fs file parser.module dirs with
    | none => .done (.ok none)
    | some path =>
      .ask path fun answer =>
        match answer with
        | .error e => .done (.error e)
        | .ok dst =>
          if t.crc32 dst.image.data ≠ checksum then .done (.error .invalidData)
          else .done (.ok (some dst))

/-- `src/dwarf/resolver.rs:190-218` (`try_find_dwp`). -/
def findDwp (parser : ElfParser) : Prog Bytes ElfParser (Option ElfParser) :=
  match parser.module with
  | none => .done (.ok none)
  | some path =>
    .ask (path ++ ascii ".dwp") fun answer =>
      match answer with
      | .ok dwp => .done (.ok (some dwp))
      | .error .notFound => .done (.ok none)
      | .error e => .done (.error e)

/-- The `?` operator. -/
def andThen {P Pr D E : Type} : Prog P Pr D → (D → Prog P Pr E) → Prog P Pr E
  | .done (.error e), _ => .done (.error e)
  | .done (.ok d), k => k d
  | .ask p next, k => .ask p fun answer => andThen (next answer) k

/-- `src/dwarf/resolver.rs:222-237` (`DwarfResolver`), except for the file itself. -/
structure DebugData where
  units : Units
  linkee : Option ElfParser

/-- `src/dwarf/resolver.rs:248-298` (`from_parser`). -/
def fromParser (t : Tools) (fs : Files) (dirs : List Bytes) (parser : ElfParser) :
    Prog Bytes ElfParser DebugData :=
  andThen (derefDebugLink t fs dirs parser) fun linkee =>
    andThen (findDwp parser) fun dwp =>
      match t.load (linkee.getD parser).image (dwp.map ElfParser.image) with
      | .error e => .done (.error e)
      | .ok units => .done (.ok ⟨units, linkee⟩)

/-- The resolver of `Verif.Dwarf.Resolver` (`src/dwarf/resolver.rs:222-237`): symbols that are not in
the debug information are searched for in `linkee_parser`, or else in the file itself
(`:379`, `:428`). -/
def DebugData.resolver (t : Tools) (parser : ElfParser) (d : DebugData) : Resolver where
  units := d.units
  module := parser.module
  elfFindSym := (d.linkee.getD parser).findSym t
  elfFindAddr := (d.linkee.getD parser).findAddrInfos t
  fileOffset := parser.findFileOffset t

/-- `src/elf/resolver.rs:32-37` (`ElfBackend`), `:156-159` (`ElfResolver`). -/
inductive ElfResolver where
  | elf (parser : ElfParser)
  | dwarf (parser : ElfParser) (data : DebugData)

/-- `src/elf/resolver.rs:221-227` (`parser`). -/
def ElfResolver.parser : ElfResolver → ElfParser
  | .elf p => p
  | .dwarf p _ => p

/-- `src/elf/resolver.rs:236-244` (`find_sym`). -/
def ElfResolver.findSym (t : Tools) : ElfResolver → SymFn
  | .elf p => p.findSym t
  | .dwarf p d => (d.resolver t p).findSym t.σ

/-- `src/elf/resolver.rs:246-251` (`file_offset_to_virt_offset`). -/
def ElfResolver.toVirt (t : Tools) (r : ElfResolver) (off : Nat) : Except Err (Option Nat) :=
  (r.parser.file t).fileOffsetToVirtOffset off

/-- `src/dwarf/resolver.rs:404-434` (`find_addr`), with modules (`:346`, and those of the fallback). -/
def debugFindAddr (t : Tools) (parser : ElfParser) (d : DebugData) (name : Bytes)
    (opts : Elf.FindAddrOpts) : Except Err (List CApi.SymInfo) :=
  if opts.symType = .variable then .error .unsupported
  else do
    let functions ← d.units.findName t.σ name d.units.units
    let syms ← (d.resolver t parser).symInfos opts.fileOffset functions
    if syms.isEmpty then (d.linkee.getD parser).findAddr t name opts
    else .ok (syms.map (withModule parser.module))

/-- `src/elf/resolver.rs:253-260` (`find_addr`). -/
def ElfResolver.findAddr (t : Tools) (r : ElfResolver) (name : Bytes) (opts : Elf.FindAddrOpts) :
    Except Err (List CApi.SymInfo) :=
  match r with
  | .elf p => p.findAddr t name opts
  | .dwarf p d => debugFindAddr t p d name opts

/-- `src/elf/resolver.rs:262-268` (`for_each`). -/
def ElfResolver.forEach {S : Type} (t : Tools) (r : ElfResolver) (opts : Elf.FindAddrOpts)
    (f : S → CApi.SymInfo → S × Bool) (s : S) : Except Err _root_.Unit × S :=
  match r with
  | .elf p => p.forEach t opts f s
  | .dwarf p d => (d.resolver t p).forEach t.σ opts (fun s i => f s (withModule p.module i)) s

/-- `src/elf/parser.rs:1216-1229` (`open`): the parser for a path, without a cache. -/
def openParser {M : Type} (disk : Disk Bytes M (Except Err Bytes)) (path : Bytes) : Except Err ElfParser :=
  match disk.opened path with
  | .error e => .error e
  | .ok file => elfParse path file

/-- `src/elf/resolver.rs:181-195` (`open_with_debug_dirs`), and with the default directories `:163-175`
(`open`): without a cache. -/
def openWithDebugDirs {M : Type} (t : Tools) (fs : Files) (disk : Disk Bytes M (Except Err Bytes))
    (dirs : List Bytes) (path : Bytes) : Except Err ElfResolver :=
  match openParser disk path with
  | .error e => .error e
  | .ok parser =>
    match (fromParser t fs dirs parser).eval (openParser disk) with
    | .error e => .error e
    | .ok d => .ok (.dwarf parser d)

end Blazesym.Dwarf
