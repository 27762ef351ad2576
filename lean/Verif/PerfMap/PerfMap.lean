import Verif.Maps.Maps
import Verif.Symbolize.Types
import Verif.Util.Search
import Verif.Util.Sort
import Verif.Util.StableSort
import Verif.Util.Text

/-! # Model of perf map files (`src/perf_map.rs`) -/

set_option autoImplicit false

namespace Blazesym.PerfMap
open Blazesym.Util Blazesym.Symbolize Blazesym.Maps

/-- `src/perf_map.rs:31-39` (`Function`). -/
structure Function where
  name : Bytes
  addr : Nat
  size : Nat
  deriving DecidableEq, Repr

/-- `str::from_utf8(..).map_err(..)` as in `src/perf_map.rs:61-66`. -/
def utf8OrInvalid (s : Bytes) : Except Err Bytes := if isUtf8 s then .ok s else .error .invalidData

/-- `src/perf_map.rs:42-102` (`parse_perf_map_line`). -/
def parsePerfMapLine (line : Bytes) : Except Err Function := do
  let (addrSlice, line) ← orInvalid (splitBytes line isAsciiWs)
  let addrStr ← utf8OrInvalid addrSlice
  let addr ← orInvalid (fromStrRadix u64Size 16 addrStr)
  let (sizeSlice, line) ← orInvalid (splitBytes line isAsciiWs)
  let sizeStr ← utf8OrInvalid sizeSlice
  let size ← orInvalid (fromStrRadix u64Size 16 sizeStr)
  let name ← utf8OrInvalid line
  pure { name, addr, size }

/-- `src/perf_map.rs:105-113` (`parse_perf_map`). -/
def parsePerfMap (data : Bytes) : Except Err (List Function) :=
  match collect (((split (fun b => b == 10 || b == 13) data).filter (fun line => !line.isEmpty)).map
      parsePerfMapLine) with
  | .error e => .error e
  | .ok functions => .ok (sortByKey (fun x => pairKey x.addr x.size) functions)

/-- The test of `src/perf_map.rs:166-168`; `||` and `&&` do not evaluate what they do not need. -/
def matches? (function : Function) (addr : Nat) : Except Err Bool :=
  if function.addr = addr ∧ function.size = 0 then .ok true
  else if function.addr ≤ addr then
    match addU64 function.addr function.size with
    | .error e => .error e
    | .ok stop => .ok (decide (addr < stop))
  else .ok false

/-- The loop of `src/perf_map.rs:162-183`. -/
def scan (addr : Nat) : List Function → Except Err (Except Reason ResolvedSym)
  | [] => .ok (.error .unknownAddr)
  | function :: rest =>
    if function.addr > addr then .ok (.error .unknownAddr)
    else
      match matches? function addr with
      | .error e => .error e
      | .ok true =>
        .ok (.ok { name := function.name, module := none, addr := function.addr,
                   size := some function.size, lang := .unknown, codeInfo := none, inlined := [] })
      | .ok false => scan addr rest

/-- `src/perf_map.rs:157-188` (`find_sym`). -/
def findSym (functions : List Function) (addr : Nat) (_opts : FindSymOpts) :
    Except Err (Except Reason ResolvedSym) :=
  match findMatchOrLowerBoundByKey functions addr (fun l => l.addr) with
  | some idx => scan addr (functions.drop idx)
  | none => .ok (.error .unknownAddr)

/-- `src/perf_map.rs:130-136` (`path`); `pid` is the resolved process ID. -/
def path (pid : Nat) : Bytes := ascii "/tmp" ++ ascii "/" ++ (ascii "perf-" ++ fmtDec pid ++ ascii ".map")

end Blazesym.PerfMap
