import Verif.Cli.ReadSpec
import Verif.Cli.Main

/-!
# What the command line tool is expected to print

What the library answers is taken from the model of the library; what is to be read in the output is said here.
-/

set_option autoImplicit false

namespace Blazesym.Spec.Cli
open Blazesym.Symbolize (CodeInfo InlinedFn Sym Symbolized Input)
open Blazesym.Cli (Platform SymbolizeCmd)

variable {M : Type} [DecidableEq M]

/-- The path of a source file: the file, in the directory unless it has an absolute path. -/
def sourcePath (c : CodeInfo) : Bytes :=
  match c.dir with
  | none => c.file
  | some dir =>
    if c.file.head? = some 47 then c.file
    else if dir = [] ∨ dir.getLast? = some 47 then dir ++ c.file
    else dir ++ ascii "/" ++ c.file

/-- The place in source code.  A column without a line is not shown. -/
def placeOf (display : Bytes → Bytes) (c : CodeInfo) : Place :=
  ⟨display (sourcePath c), c.line, if c.line = none then none else c.column⟩

/-- What is to be read for an answer of the library. -/
def frameOf (display : Bytes → Bytes) : Symbolized → Option Frame
  | .unknown _ => none
  | .sym s => some
    ⟨s.name, s.addr, s.offset, s.codeInfo.map (placeOf display),
      s.inlined.map fun f => (f.name, f.codeInfo.map (placeOf display))⟩

/-- A name that can be told from what follows it. -/
def PlainName (name : Bytes) : Prop := (10 : UInt8) ∉ name ∧ ¬ ascii " @" <:+: name

/-- A place that can be printed: the path has no newline and no colon, and the numbers are 64 bit numbers. -/
def PlainPlace (display : Bytes → Bytes) (c : CodeInfo) : Prop :=
  (10 : UInt8) ∉ display (sourcePath c) ∧ (58 : UInt8) ∉ display (sourcePath c) ∧
  (∀ n ∈ c.line, n < 2 ^ 64) ∧ ∀ n ∈ c.column, n < 2 ^ 64

/-- An answer that can be printed. -/
def PlainAnswer (display : Bytes → Bytes) : Symbolized → Prop
  | .unknown _ => True
  | .sym s => PlainName s.name ∧ s.addr < 2 ^ 64 ∧ s.offset < 2 ^ 64 ∧ (∀ c ∈ s.codeInfo, PlainPlace display c) ∧
      ∀ f ∈ s.inlined, PlainName f.name ∧ ∀ c ∈ f.codeInfo, PlainPlace display c

/-- An absent argument means the default, an empty one that the file is not to be used. -/
def FileArg : Option Bytes → Kernel.MaybeDefault Bytes → Prop
  | none, x => x = .default
  | some path, x => (path = [] ∧ x = .none) ∨ (path ≠ [] ∧ x = .some path)

/-- What a command asks the library for: the source, the form of the addresses and the directories to look for
debug files in (none: the usual ones). -/
inductive Asks : SymbolizeCmd → Symbolize.Source → Input (List Nat) → Option (List Bytes) → Prop where
  | breakpad (path : Bytes) (addrs : List Nat) :
      Asks (.breakpad path addrs) (.breakpad path) (.fileOffset addrs) none
  | elf (path : Bytes) (dirs : Option (List Bytes)) (noDebugSyms debugSyms : Bool) (addrs : List Nat)
      (h : debugSyms = true ↔ noDebugSyms = false) :
      Asks (.elf path dirs noDebugSyms addrs) (.elf path debugSyms) (.virtOffset addrs) dirs
  | gsym (path : Bytes) (addrs : List Nat) : Asks (.gsym path addrs) (.gsymFile path) (.virtOffset addrs) none
  | process (pid : Nat) (dirs : Option (List Bytes)) (noDebugSyms debugSyms noMapFiles mapFiles : Bool)
      (addrs : List Nat) (h : debugSyms = true ↔ noDebugSyms = false) (hm : mapFiles = true ↔ noMapFiles = false) :
      Asks (.process pid dirs noDebugSyms addrs noMapFiles)
        (.process { pid, debugSyms, perfMap := true, mapFiles, vdso := true }) (.absAddr addrs) dirs
  | kernel (kallsyms vmlinux : Option Bytes) (k v : Kernel.MaybeDefault Bytes) (addrs : List Nat)
      (hk : FileArg kallsyms k) (hv : FileArg vmlinux v) :
      Asks (.kernel kallsyms vmlinux addrs)
        (.kernel { kallsyms := k, vmlinux := v, kaslr := none, debugSyms := true }) (.absAddr addrs) none

/-- The settings of a symbolizer by default, but with given directories for debug files. -/
structure DefaultSettings (p : Platform) (dirs : Option (List Bytes))
    (cfg : Symbolize.Settings M (Symbolize.KernelCache M)) : Prop where
  tools : cfg.tools = p.tools
  demangler : cfg.demangler = p.demangler
  autoReload : cfg.autoReload = true
  codeInfo : cfg.codeInfo = true
  inlinedFns : cfg.inlinedFns = true
  demangle : cfg.demangle = true
  debugDirs : cfg.debugDirs = dirs.getD [ascii "/usr/lib/debug", ascii "/lib/debug/"]
  apkDispatch : cfg.apkDispatch = none
  processDispatch : cfg.processDispatch = none
  standard : Symbolize.Standard cfg

/-! ### `normalize` -/

/-- What is to be read for an offset and a record; symbols of the vDSO are not foreseen. -/
inductive Shown (display : Bytes → Bytes) (offset : Nat) : Normalize.UserMeta → Option InFile → Prop where
  | apk (path : Bytes) : Shown display offset (.apk path) (some ⟨offset, display path, none⟩)
  | elf (path : Bytes) (id : Option Bytes) : Shown display offset (.elf path id) (some ⟨offset, display path, id⟩)
  | unknown (reason : Symbolize.Reason) : Shown display offset (.unknown reason) none

/-- A record that can be printed: the path has no newline and is not followed by what looks like a build ID. -/
def PlainMeta (display : Bytes → Bytes) : Normalize.UserMeta → Prop
  | .apk path | .elf path _ => (10 : UInt8) ∉ display path ∧ ¬ ascii " (build ID:" <:+: display path
  | _ => True

/-- The settings of the normalizer: the default ones, but for build IDs and the way mappings are found. -/
def normalizerFor (p : Platform) (cmd : Blazesym.Cli.NormalizeCmd) : Normalize.Settings where
  useProcmapQuery := cmd.procmapQuery
  cacheVmas := false
  buildIds := !cmd.noBuildIds
  cacheBuildIds := false
  tools := p.tools

/-- What the library answers to the command. -/
def normalized (p : Platform) (w : Normalize.World M) (cmd : Blazesym.Cli.NormalizeCmd) : Normalize.NResult :=
  ((Normalize.Normalizer.new : Normalize.Normalizer M).normalize (normalizerFor p cmd) w
    { sortedAddrs := false, mapFiles := cmd.mapFiles, apkToElf := false } cmd.pid cmd.addrs).1

/-! ### `inspect` -/

/-- The file that a command asks about, and for names or for everything. -/
inductive Looks : Blazesym.Cli.InspectCmd → Inspect.Source → Option (List Bytes) → Prop where
  | lookupBreakpad (path : Bytes) (names : List Bytes) : Looks (.lookupBreakpad path names) (.breakpad path) (some names)
  | lookupElf (path : Bytes) (names : List Bytes) : Looks (.lookupElf path names) (.elf path true) (some names)
  | dumpBreakpad (path : Bytes) : Looks (.dumpBreakpad path) (.breakpad path) none
  | dumpElf (path : Bytes) (noDebugSyms debugSyms : Bool) (h : debugSyms = true ↔ noDebugSyms = false) :
      Looks (.dumpElf path noDebugSyms) (.elf path debugSyms) none

/-- The kind of a symbol. -/
def kindOf : Elf.SymType → Bytes
  | .function => ascii "FUNC"
  | .variable => ascii "VAR"
  | .undefined => ascii "UNDEF"

/-- What is to be read for a symbol. -/
def listedOf (s : CApi.SymInfo) : Listed := ⟨s.name, s.addr, s.size, kindOf s.symType⟩

/-- A symbol that can be printed. -/
def PlainSym (s : CApi.SymInfo) : Prop :=
  (10 : UInt8) ∉ s.name ∧ s.addr < 2 ^ 64 ∧ ∀ n ∈ s.size, n < 2 ^ 64

/-- The number of characters of text in UTF-8. -/
def chars (s : Bytes) : Nat := (s.filter fun b => b < 128 || 192 ≤ b).length

/-- In every line the address begins `col` characters from the start. -/
def Column (col : Nat) (l : Bytes) (s : CApi.SymInfo) : Prop :=
  ∃ before addr after, l = before ++ addr ++ ascii " " ++ after ∧ chars before = col ∧ hex addr = some s.addr

end Blazesym.Spec.Cli
