import Verif.Opened.Model

/-!
# What an open GSYM, Breakpad or kallsyms file has to answer

The answers are those computed from the contents of the file alone (`Verif.Gsym.Resolver`, `Verif.Breakpad.Resolver`,
`Verif.Kernel.Ksym`, about which C18 to C23, C30, C31 and C56 say what they are).
-/

set_option autoImplicit false

namespace Blazesym.Opened
open Blazesym.Util Blazesym.Symbolize Blazesym.Cache

/-- The answer for a Breakpad file, without keeping anything. -/
def breakpadNow (file : Breakpad.SymbolFile) : Ask → Except Err (Answer Elf.SymInfo)
  | .sym addr opts => (file.findSym addr opts).map .sym
  | .name name symType => (file.lookupName name symType).map .infos

/-- The answer for a kallsyms file, without keeping anything. -/
def ksymNow (lines : Kernel.BpfLines) (syms : List Kernel.Ksym) : Ask → Except Err (Answer Kernel.KsymInfo)
  | .sym addr opts => (Kernel.ksymFindSym lines syms addr opts).map .sym
  | .name name symType => .ok (.infos (Kernel.ksymFindAddr syms name symType))

/-- Visit items in order until the callback wants no more; the callback is given the answers to what it asks for. -/
def visit {S I R A : Type} (now : R → A) (f : S → I → List A → S × Bool) (asks : S → I → List R) : List I → S → S
  | [], s => s
  | i :: rest, s => if (f s i ((asks s i).map now)).2 then (f s i ((asks s i).map now)).1
    else visit now f asks rest (f s i ((asks s i).map now)).1

/-- What a file may keep after any requests, successful or not. -/
inductive Kept {S R A : Type} (ask : R → Act S A) (new : S) : S → Prop where
  | new : Kept ask new new
  | ask (s : S) (r : R) : Kept ask new s → Kept ask new (ask r s).2

end Blazesym.Opened
