import Verif.Symbolize.Types
import Verif.Util.Search
import Verif.Util.Sort
import Verif.Util.Text

/-! # Model of the kernel module map (`src/kernel/modmap.rs`) -/

set_option autoImplicit false

namespace Blazesym.Kernel
open Blazesym.Util Blazesym.Symbolize

/-- `src/kernel/modmap.rs:16-20` (`Mod`). -/
structure Mod where
  name : Bytes
  addr : Nat
  size : Nat
  deriving DecidableEq, Repr

/-- The body of the loop of `src/kernel/modmap.rs:51-94`; `none` is `continue`. -/
def parseModLine (line : Bytes) : Option Mod :=
  match splitAsciiWhitespace line with
  | name :: size :: _insts :: _deps :: _state :: addr :: _ =>
    match fromStrRadix u64Size 16 (trimStartMatches (ascii "0x") addr.length addr) with
    | none => none
    | some addr =>
      if addr = 0 then none
      else
        match fromStrRadix u64Size 10 size with
        | none => none
        | some size => some { name, addr, size }
  | _ => none

/-- The loop of `src/kernel/modmap.rs:51-94`; `read_line` refuses a line that is not UTF-8. -/
def parseModLines : List Bytes → Except Err (List Mod)
  | [] => .ok []
  | line :: rest =>
    if isUtf8 line then
      match parseModLines rest with
      | .error e => .error e
      | .ok mods => .ok ((parseModLine line).toList ++ mods)
    else .error .invalidData

/-- `src/kernel/modmap.rs:43-99` (`from_reader`); `σ` is the order `sort_unstable_by_key` gives
to modules with the same address. -/
def loadModules (σ : Sorter) (data : Bytes) : Except Err (List Mod) :=
  match parseModLines (splitLines data) with
  | .error e => .error e
  | .ok mods => .ok (σ.sort (fun a b => decide (a.addr ≤ b.addr)) mods)

/-- `src/kernel/modmap.rs:102-119` (`find_module`). -/
def findModule (mods : List Mod) (addr : Nat) : Except Err (Except Reason (Bytes × Nat)) :=
  let missing : Except Err (Except Reason (Bytes × Nat)) :=
    if mods.isEmpty then .ok (.error .missingSyms) else .ok (.error .unknownAddr)
  match (findMatchOrLowerBoundByKey mods addr Mod.addr).bind (fun idx => mods[idx]?) with
  | none => missing
  | some m =>
    match addU64 m.addr m.size with
    | .error e => .error e
    | .ok stop => if m.addr ≤ addr ∧ addr < stop then .ok (.ok (m.name, m.addr)) else missing

end Blazesym.Kernel
