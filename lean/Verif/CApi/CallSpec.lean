import Verif.CApi.InputSpec
import Verif.CApi.Call

/-! # What callers of the C interface are told -/

set_option autoImplicit false

namespace Blazesym.CApi

open Blazesym.Error Blazesym.Symbolize

/-- Reading the arguments of a symbolization function: its addresses are of the kind its name says. -/
inductive SymbolizeArgs (m : Mem) (src addrs cnt : Nat) : SymbolizeFn → Source → Input (List Nat) → Prop
  | process {s : Source} {xs : List Nat} (h : inputAs m src .srcProcess srcProcess = .ok (.ok s))
      (hx : userArray m addrs 8 cnt = .ok xs) : SymbolizeArgs m src addrs cnt .process s (.absAddr xs)
  | kernel {s : Source} {xs : List Nat} (h : inputAs m src .srcKernel (srcKernel m) = .ok (.ok s))
      (hx : userArray m addrs 8 cnt = .ok xs) : SymbolizeArgs m src addrs cnt .kernel s (.absAddr xs)
  | elfVirt {s : Source} {xs : List Nat} (h : inputAs m src .srcElf (srcElf m) = .ok (.ok s))
      (hx : userArray m addrs 8 cnt = .ok xs) : SymbolizeArgs m src addrs cnt .elfVirt s (.virtOffset xs)
  | elfFile {s : Source} {xs : List Nat} (h : inputAs m src .srcElf (srcElf m) = .ok (.ok s))
      (hx : userArray m addrs 8 cnt = .ok xs) : SymbolizeArgs m src addrs cnt .elfFile s (.fileOffset xs)
  | gsymData {s : Source} {xs : List Nat} (h : inputAs m src .srcGsymData (srcGsymData m) = .ok (.ok s))
      (hx : userArray m addrs 8 cnt = .ok xs) : SymbolizeArgs m src addrs cnt .gsymData s (.virtOffset xs)
  | gsymFile {s : Source} {xs : List Nat} (h : inputAs m src .srcGsymFile (srcGsymFile m) = .ok (.ok s))
      (hx : userArray m addrs 8 cnt = .ok xs) : SymbolizeArgs m src addrs cnt .gsymFile s (.virtOffset xs)

/-- The input structure of a call, if it has one. -/
def Call.struct : Call → Option (InputType × Nat)
  | .symbolizerNewOpts opts => some (.symbolizerOpts, opts)
  | .symbolize .process src _ _ => some (.srcProcess, src)
  | .symbolize .kernel src _ _ => some (.srcKernel, src)
  | .symbolize .elfVirt src _ _ => some (.srcElf, src)
  | .symbolize .elfFile src _ _ => some (.srcElf, src)
  | .symbolize .gsymData src _ _ => some (.srcGsymData, src)
  | .symbolize .gsymFile src _ _ => some (.srcGsymFile, src)
  | .cacheElf src => some (.cacheElf, src)
  | .cacheProcess src => some (.cacheProcess, src)
  | .normalizerNewOpts opts => some (.normalizerOpts, opts)
  | .normalizeOpts _ _ _ opts => some (.normalizeOpts, opts)
  | .inspect src _ _ => some (.inspectElf, src)
  | _ => none

/-- Whether the function returns a pointer. -/
def Call.pointer : Call → Prop
  | .cacheElf _ | .cacheProcess _ | .procmapQuery => False
  | _ => True

/-- Whether it is a valid answer of the function to return `NULL` although there was no error. -/
def Call.mayBeEmpty : Call → Prop
  | .symbolize .. | .buildId _ => True
  | _ => False

end Blazesym.CApi
