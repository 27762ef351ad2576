import Verif.Cli.Args
import Verif.Session.Normalizer
import Verif.Session.Inspector
import Verif.Session.Kernel
import Verif.Util.Join

/-!
# Model of the command line tool (`cli/src/main.rs`)

A command is modelled as what it writes to its standard output and how it ends.  Writing never fails.  What goes
to standard error (error messages and log messages) is not modelled.
-/

set_option autoImplicit false

namespace Blazesym.Cli
open Blazesym.Util
open Blazesym.Symbolize (Symbolized Sym CodeInfo InlinedFn Input Demangler)
open Blazesym.Normalize (UserMeta)
open Blazesym.Dwarf (Tools)

variable {M : Type} [DecidableEq M]

/-- What other libraries do. -/
structure Platform where
  tools : Tools
  demangler : Demangler
  /-- `Path::display` (standard library): what is not UTF-8 is replaced. -/
  display : Bytes → Bytes

/-- What a command writes and how it ends. -/
structure Outcome where
  stdout : Bytes
  result : Except Err _root_.Unit
  deriving DecidableEq

/-- Ending without writing anything. -/
def Outcome.fail (e : Err) : Outcome := ⟨[], .error e⟩

/-- `println!`. -/
def println (s : Bytes) : Bytes := s ++ [10]

/-- `{n:#x}`. -/
def fmtAltHex (n : Nat) : Bytes := ascii "0x" ++ fmtHex n

/-- `{n:#016x}`: zeros are added until there are 16 characters. -/
def fmtAddr (n : Nat) : Bytes := ascii "0x" ++ List.replicate (14 - (fmtHex n).length) 48 ++ fmtHex n

/-- `{b:02x}`. -/
def fmtByte (b : UInt8) : Bytes := List.replicate (2 - (fmtHex b.toNat).length) 48 ++ fmtHex b.toNat

/-- `cli/src/main.rs:35-42` (`format_build_id_bytes`). -/
def formatBuildIdBytes : Bytes → Bytes
  | [] => []
  | b :: rest => fmtByte b ++ formatBuildIdBytes rest

/-- `cli/src/main.rs:44-50` (`format_build_id`). -/
def formatBuildId : Option Bytes → Bytes
  | some id => ascii " (build ID: " ++ formatBuildIdBytes id ++ ascii ")"
  | none => []

/-! ### `symbolize` -/

/-- `src/symbolize/mod.rs:268-273` (`CodeInfo::to_path`). -/
def toPath (c : CodeInfo) : Bytes :=
  match c.dir with
  | none => c.file
  | some dir => pathJoin dir c.file

/-- `cli/src/main.rs:196-205`. -/
def codeText (display : Bytes → Bytes) (c : CodeInfo) : Bytes :=
  match c.line, c.column with
  | some line, some col => ascii " " ++ display (toPath c) ++ ascii ":" ++ fmtDec line ++ ascii ":" ++ fmtDec col
  | some line, none => ascii " " ++ display (toPath c) ++ ascii ":" ++ fmtDec line
  | none, _ => ascii " " ++ display (toPath c)

/-- `cli/src/main.rs:191-224` (`print_frame`). -/
def printFrame (display : Bytes → Bytes) (name : Bytes) (info : Option (Nat × Nat × Nat)) (code : Option CodeInfo) :
    Bytes :=
  match info with
  | some (input, addr, offset) =>
    println (fmtAddr input ++ ascii ": " ++ name ++ ascii " @ " ++ fmtAltHex addr ++ ascii "+" ++ fmtAltHex offset ++
      (code.map (codeText display)).getD [])
  | none =>
    println (List.replicate 16 32 ++ ascii "  " ++ name ++
      (code.map fun c => ascii " @" ++ codeText display c).getD [] ++ ascii " [inlined]")

/-- The frames of functions that were inlined, `cli/src/main.rs:332-334`. -/
def printInlined (display : Bytes → Bytes) : List InlinedFn → Bytes
  | [] => []
  | f :: rest => printFrame display f.name none f.codeInfo ++ printInlined display rest

/-- `cli/src/main.rs:318-339`: what is written for one address. -/
def printSymbolized (display : Bytes → Bytes) (input : Nat) : Symbolized → Bytes
  | .sym s =>
    printFrame display s.name (some (input, s.addr, s.offset)) s.codeInfo ++ printInlined display s.inlined
  | .unknown _ => println (fmtAddr input ++ ascii ": <no-symbol>")

/-- The loop of `cli/src/main.rs:317-340`. -/
def printAll (display : Bytes → Bytes) : List Nat → List Symbolized → Bytes
  | addr :: addrs, s :: syms => printSymbolized display addr s ++ printAll display addrs syms
  | _, _ => []

/-- `cli/src/main.rs:286-295`: an argument that may be empty. -/
def pathArg : Option Bytes → Kernel.MaybeDefault Bytes
  | none => .default
  | some path => if path.isEmpty then .none else .some path

/-- `src/symbolize/source.rs:304-313` (`Process::new`). -/
def newProcess (pid : Nat) : Symbolize.ProcessSource :=
  { pid, debugSyms := true, perfMap := true, mapFiles := true, vdso := true }

/-- `cli/src/main.rs:229-303`, with `src/symbolize/source.rs:228-238` (`Kernel::default`): the source and the form of the addresses. -/
def sourceOf : SymbolizeCmd → Symbolize.Source × Input (List Nat)
  | .breakpad path addrs => (.breakpad path, .fileOffset addrs)
  | .elf path _ noDebugSyms addrs => (.elf path (!noDebugSyms), .virtOffset addrs)
  | .gsym path addrs => (.gsymFile path, .virtOffset addrs)
  | .process pid _ noDebugSyms addrs noMapFiles =>
    (.process { newProcess pid with debugSyms := !noDebugSyms, mapFiles := !noMapFiles }, .absAddr addrs)
  | .kernel kallsyms vmlinux addrs =>
    (.kernel { kallsyms := pathArg kallsyms, vmlinux := pathArg vmlinux, kaslr := none, debugSyms := true }, .absAddr addrs)

/-- The directories for debug files: `cli/src/main.rs:245, 270`, with `src/symbolize/symbolizer.rs:383-397`
(`set_debug_dirs`) and `:475-489` (`Builder::default`). -/
def dirsOf : SymbolizeCmd → List Bytes
  | .elf _ dirs _ _ | .process _ dirs _ _ _ => dirs.getD Inspect.defaultDebugDirs
  | _ => Inspect.defaultDebugDirs

/-- The symbolizer: `src/symbolize/symbolizer.rs:475-489` (`Builder::default`), `:434-471` (`build`). -/
def settings (p : Platform) (dirs : List Bytes) : Symbolize.Settings M (Symbolize.KernelCache M) where
  tools := p.tools
  demangler := p.demangler
  autoReload := true
  codeInfo := true
  inlinedFns := true
  demangle := true
  debugDirs := dirs
  apkDispatch := none
  processDispatch := none
  kernel := Symbolize.createKernelResolver p.tools dirs
  kernelNew := Symbolize.KernelCache.new

/-- `cli/src/main.rs:305-315`: one address is symbolized by itself. -/
def symbolizeAll (p : Platform) (w : Symbolize.World M) (cmd : SymbolizeCmd) : Except Err (List Symbolized) :=
  let cfg := settings p (dirsOf cmd)
  let s := Symbolize.State.new cfg
  match sourceOf cmd with
  | (src, input) =>
    match cmd.addrs with
    | [addr] =>
      match (s.symbolizeSingle cfg w src (input.map fun _ => addr)).1 with
      | .error e => .error e
      | .ok sym => .ok [sym]
    | _ => (s.symbolize cfg w src input).1

/-- `cli/src/main.rs:227-342` (`symbolize`). -/
def runSymbolize (p : Platform) (w : Symbolize.World M) (cmd : SymbolizeCmd) : Outcome :=
  match symbolizeAll p w cmd with
  | .error e => .fail e
  | .ok syms => ⟨printAll p.display cmd.addrs syms, .ok ()⟩

/-! ### `normalize` -/

/-- `cli/src/main.rs:170-184`: what is written for one address after the address; the program panics for what
`UserMeta` has that it does not expect. -/
def metaText (display : Bytes → Bytes) (output : Nat) : UserMeta → Except Err Bytes
  | .apk path => .ok (ascii "file offset " ++ fmtAltHex output ++ ascii " in " ++ display path)
  | .elf path id => .ok (ascii "file offset " ++ fmtAltHex output ++ ascii " in " ++ display path ++ formatBuildId id)
  | .unknown _ => .ok (ascii "<unknown>")
  | .sym _ => .error .panic

/-- The loop of `cli/src/main.rs:167-185`.  An index out of bounds is a panic. -/
def printNormalized (display : Bytes → Bytes) (metas : List UserMeta) : List Nat → List (Nat × Nat) → Outcome
  | addr :: addrs, (output, idx) :: outputs =>
    match metas[idx]? with
    | none => ⟨fmtAddr addr ++ ascii ": ", .error .panic⟩
    | some m =>
      match metaText display output m with
      | .error e => ⟨fmtAddr addr ++ ascii ": ", .error e⟩
      | .ok t =>
        let rest := printNormalized display metas addrs outputs
        ⟨fmtAddr addr ++ ascii ": " ++ println t ++ rest.stdout, rest.result⟩
  | _, _ => ⟨[], .ok ()⟩

/-- `cli/src/main.rs:147-189` (`normalize`). -/
def runNormalize (p : Platform) (w : Normalize.World M) (cmd : NormalizeCmd) : Outcome :=
  let cfg := Normalize.Builder.build
    { Normalize.Builder.default with buildIds := !cmd.noBuildIds, useProcmapQuery := cmd.procmapQuery } p.tools
  match ((Normalize.Normalizer.new : Normalize.Normalizer M).normalize cfg w
      { sortedAddrs := false, mapFiles := cmd.mapFiles, apkToElf := false } cmd.pid cmd.addrs).1 with
  | .err e => .fail e
  | .ok metas outputs => printNormalized p.display metas cmd.addrs outputs

/-! ### `inspect` -/

/-- Number of characters of UTF-8 text: bytes that do not continue a character. -/
def charCount (s : Bytes) : Nat := (s.filter fun b => !(128 ≤ b && b < 192)).length

/-- `{s:<width$}`. -/
def padRight (width : Nat) (s : Bytes) : Bytes := s ++ List.replicate (width - charCount s) 32

/-- `cli/src/main.rs:54-59`: the width of the column of names. -/
def nameWidth (syms : List CApi.SymInfo) : Nat :=
  match (syms.map fun s => s.name.length).max? with
  | some w => w + 1
  | none => 0

/-- `cli/src/main.rs:64-68`. -/
def typeText : Elf.SymType → Bytes
  | .function => ascii " [FUNC]"
  | .variable => ascii " [VAR]"
  | .undefined => ascii " [UNDEF]"

/-- `cli/src/main.rs:61-76`: one symbol. -/
def printSym (width : Nat) (s : CApi.SymInfo) : Bytes :=
  println (padRight width (s.name ++ ascii ":") ++ ascii " " ++ fmtAddr s.addr ++ ascii " " ++
    padRight 11 (ascii "(size=" ++ (match s.size with | some n => fmtDec n | none => ascii "N/A") ++ ascii ")") ++
    typeText s.symType)

/-- `cli/src/main.rs:53-78` (`print_sym_infos`).  The width of a `format!` argument is at most `u16::MAX` (it is
a panic otherwise since Rust 1.87; `rust-version` is 1.88), which the first `println!` finds out before it writes
anything. -/
def printSymInfos (syms : List CApi.SymInfo) : Outcome :=
  if nameWidth syms < 65536 then ⟨(syms.map (printSym (nameWidth syms))).flatten, .ok ()⟩
  else .fail .panic

/-- `cli/src/main.rs:98-109`. -/
def runLookup (p : Platform) (w : Inspect.World M) (src : Inspect.Source) (names : List Bytes) : Outcome :=
  match ((Inspect.Inspector.new : Inspect.Inspector M).lookup p.tools w src names).1 with
  | .error e => .fail e
  | .ok found => printSymInfos (found.map (sortByKey CApi.SymInfo.addr)).flatten

/-- `cli/src/main.rs:125-132`. -/
def runDump (p : Platform) (w : Inspect.World M) (src : Inspect.Source) : Outcome :=
  match ((Inspect.Inspector.new : Inspect.Inspector M).forEach p.tools w src (fun l s => (l ++ [s], false)) []).1 with
  | (.error e, _) => .fail e
  | (.ok _, syms) => printSymInfos (sortByKey CApi.SymInfo.addr syms)

/-- `cli/src/main.rs:134-142`, with `src/normalize/buildid.rs:95-102` (`read_elf_build_id`). -/
def runBuildId (p : Platform) (w : Inspect.World M) (path : Bytes) : Outcome :=
  match Dwarf.openParser w.disk path with
  | .error e => .fail e
  | .ok parser =>
    match Elf.readBuildId p.tools.codec parser.image with
    | .error e => .fail e
    | .ok (some id) => ⟨println (formatBuildIdBytes id), .ok ()⟩
    | .ok none => ⟨println (ascii "N/A"), .ok ()⟩

/-- `cli/src/main.rs:80-144` (`inspect`), with `src/inspect/source.rs` (`Elf::new`: with debug information). -/
def runInspect (p : Platform) (w : Inspect.World M) : InspectCmd → Outcome
  | .lookupBreakpad path names => runLookup p w (.breakpad path) names
  | .lookupElf path names => runLookup p w (.elf path true) names
  | .dumpBreakpad path => runDump p w (.breakpad path)
  | .dumpElf path noDebugSyms => runDump p w (.elf path (!noDebugSyms))
  | .buildId path => runBuildId p w path

end Blazesym.Cli
