import Verif.Util.Text
import Verif.Util.Format
import Verif.Util.PathOps

/-!
# Model of the arguments of the command line tool (`cli/src/args.rs`)

Taking the command line apart (the `clap` library) is not modelled: the model starts from the commands it
results in, and from what is done with the text of a single argument.
-/

set_option autoImplicit false

namespace Blazesym.Cli
open Blazesym.Util

/-- `cli/src/args.rs:18-27` (`parse_pid`), with `src/pid.rs` (`Pid::from`): 0 is the program itself. -/
def parsePid (s : Bytes) : Option Nat :=
  match stripPrefix s (ascii "0x") with
  | some t => fromStrRadix u32Size 16 t
  | none => fromStrRadix u32Size 10 s

/-- `cli/src/args.rs:30-35` (`parse_addr`). -/
def parseAddr (s : Bytes) : Option Nat := fromStrRadix u64Size 16 (trimStartMatches (ascii "0x") s.length s)

/-- `cli/src/args.rs:182-292` (`symbolize::Symbolize`): the arguments of `blazecli symbolize`. -/
inductive SymbolizeCmd where
  | breakpad (path : Bytes) (addrs : List Nat)
  | elf (path : Bytes) (debugDirs : Option (List Bytes)) (noDebugSyms : Bool) (addrs : List Nat)
  | gsym (path : Bytes) (addrs : List Nat)
  | process (pid : Nat) (debugDirs : Option (List Bytes)) (noDebugSyms : Bool) (addrs : List Nat) (noMapFiles : Bool)
  | kernel (kallsyms vmlinux : Option Bytes) (addrs : List Nat)

/-- The addresses. -/
def SymbolizeCmd.addrs : SymbolizeCmd → List Nat
  | .breakpad _ addrs | .elf _ _ _ addrs | .gsym _ addrs | .process _ _ _ addrs _ | .kernel _ _ addrs => addrs

/-- `cli/src/args.rs:159-178` (`normalize::User`): the arguments of `blazecli normalize user`. -/
structure NormalizeCmd where
  pid : Nat
  addrs : List Nat
  noBuildIds : Bool
  mapFiles : Bool
  procmapQuery : Bool

/-- `cli/src/args.rs:64-140` (`inspect::Inspect`): the arguments of `blazecli inspect`. -/
inductive InspectCmd where
  | lookupBreakpad (path : Bytes) (names : List Bytes)
  | lookupElf (path : Bytes) (names : List Bytes)
  | dumpBreakpad (path : Bytes)
  | dumpElf (path : Bytes) (noDebugSyms : Bool)
  | buildId (path : Bytes)

end Blazesym.Cli
