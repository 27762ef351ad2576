import Verif.CApi.NormProgram
import Verif.CApi.InspProgram

/-!
# Model of programs that use all of the C interface

The functions for symbolization, normalization and inspection work on the same memory and set the same last error.
-/

set_option autoImplicit false

namespace Blazesym.CApi

variable {M : Type} [DecidableEq M]

/-- A program: its memory, the last error of every thread, and its symbolizers, normalizers and inspectors
(`capi/src/error.rs:73-76`, `capi/src/symbolize.rs:456`, `capi/src/normalize.rs:41`, `capi/src/inspect.rs:37`). -/
structure Whole (M : Type) where
  store : Store
  errs : LastErr
  symbolizers : List (Object M)
  normalizers : List (Tool Normalize.Builder (Normalize.Normalizer M))
  inspectors : List (Tool Unit (Inspect.Inspector M))

/-- The sizes of normalizers and inspectors (`mem::size_of`); that of symbolizers is in `Platform`;
`capi/src/normalize.rs:41, 188-193`, `capi/src/inspect.rs:37, 360-365`. -/
structure Sizes where
  norm : Nat
  insp : Nat

/-- What the functions for symbolization (`capi/src/symbolize.rs:769-974, 1179-1402`) use of a program. -/
def Whole.syms (x : Whole M) : Program M := ⟨x.store, x.errs, x.symbolizers⟩

/-- What the functions for normalization (`capi/src/normalize.rs:188-254, 779-865`) use of a
program. -/
def Whole.norms (x : Whole M) : NormHost M := ⟨x.store, x.errs, x.normalizers⟩

/-- What the functions for inspection (`capi/src/inspect.rs:284-383`) use of a program. -/
def Whole.insps (x : Whole M) : InspHost M := ⟨x.store, x.errs, x.inspectors⟩

/-- The functions of the C interface that have to do with objects: `capi/src/symbolize.rs:769-974, 1179-1402`,
`capi/src/normalize.rs:188-254, 779-865`, `capi/src/inspect.rs:284-383`. -/
inductive WholeCall where
  | sym (c : SymCall)
  | norm (c : NormCall)
  | insp (c : InspCall)
  deriving DecidableEq, Repr

/-- A call by a thread: what it returns (0 for functions that return nothing) and what becomes of the program. -/
def Whole.step (p : Platform) (n : Sizes) (alloc : Allocator) (w : Normalize.World M) (thread : Nat) (x : Whole M) :
    WholeCall → Except Fault (Nat × Whole M)
  -- `capi/src/symbolize.rs:769-974, 1179-1402`
  | .sym c => do
    let (ret, prog) ← x.syms.step p alloc w.toSession thread c
    return (ret, { x with store := prog.store, errs := prog.errs, symbolizers := prog.objects })
  -- `capi/src/normalize.rs:188-254, 779-865`
  | .norm c => do
    let (ret, host) ← normStep p.tools n.norm alloc w thread x.norms c
    return (ret, { x with store := host.store, errs := host.errs, normalizers := host.tools })
  -- `capi/src/inspect.rs:284-383`
  | .insp c => do
    let (ret, host) ← inspStep p.tools n.insp alloc w.toSession.toWorld thread x.insps c
    return (ret, { x with store := host.store, errs := host.errs, inspectors := host.tools })

end Blazesym.CApi
