import Verif.Go.Program
import Verif.Go.BindingsSpec
import Verif.CApi.ProgramSpec

/-!
# What Go programs can rely on

A program creates symbolizers, uses those that it has not closed, and closes them, in any order, in any worlds and
from any goroutines.  It does what it wants with memory that is its own.  `GoRuns` also keeps account of the memory
that is the program's own, and of how many pieces of memory can have been lost: one for every empty list of debug
directories (see `C86_empty_dirs_wrong`), and one for every call by a goroutine that is not locked to its thread
(see `C86_leak_wrong`).
-/

set_option autoImplicit false

namespace Blazesym.Go

open Blazesym.CApi Blazesym.Error Blazesym.Symbolize

variable {M : Type} [DecidableEq M]

/-- The programs there are, with the memory of their own, and the number of pieces of memory that can have been
lost.  `ok` is a condition on the requests that reach a symbolizer. -/
inductive GoRuns (p : Platform) (alloc : Allocator)
    (ok : SymbolizerOpts → State M (KernelCache M) → World M → Spec.Symbolize.Call → Prop) :
    Program M → List Block → Nat → Prop where
  | start (s : Store) : s.Valid → GoRuns p alloc ok ⟨s, LastErr.init, []⟩ s.blocks 0
  /-- The program changes memory of its own, `os`, which becomes `os'`. -/
  | own (prog : Program M) (os os' rest : List Block) (n : Nat) (s' : Store) : GoRuns p alloc ok prog os n →
      prog.store.blocks.Perm (rest ++ os) → OwnWork rest os' prog.store s' →
      GoRuns p alloc ok { prog with store := s' } os' n
  /-- The library is called otherwise. -/
  | error (prog : Program M) (os : List Block) (n thread : Nat) (err : Int) : GoRuns p alloc ok prog os n →
      GoRuns p alloc ok { prog with errs := prog.errs.set thread err } os n
  | new (prog prog' : Program M) (os : List Block) (n : Nat) (w : World M) (sched : Schedule)
      (options : List SymbolizerOption) (res : Except Bytes Nat) : GoRuns p alloc ok prog os n →
      newIn p alloc w prog sched options = .ok (res, prog') → GoRuns p alloc ok prog' os (n + (emptyDirs options).length)
  | symbolize (prog prog' : Program M) (os : List Block) (n k : Nat) (w : World M) (sched : Schedule) (o : Object M)
      (req : Request) (addrs : List Nat) (res : Result) : GoRuns p alloc ok prog os n → o ∈ prog.objects → req.Fits →
      (∀ (x : Nat), x ∈ addrs → x < 2 ^ 64) → ok o.opts o.state w (.symbolize req.source (req.input addrs)) →
      FitNumbers (o.state.symbolize (settingsOf p o.opts) w req.source (req.input addrs)).1 →
      (k = 1 ∨ (k = 0 ∧ sched.Locked)) →
      symbolizeIn p alloc w prog sched o.addr req addrs = .ok (res, prog') → GoRuns p alloc ok prog' os (n + k)
  | close (prog prog' : Program M) (os : List Block) (n : Nat) (w : World M) (thread : Nat) (o : Object M) :
      GoRuns p alloc ok prog os n → o ∈ prog.objects → closeIn p alloc w prog thread o.addr = .ok prog' →
      GoRuns p alloc ok prog' os n

/-- What a goroutine is told, if the symbolizer comes back with `r`. -/
def Answers (alloc : Allocator) (r : Except Err (List Symbolized)) (res : Result) : Prop :=
  (∀ (e : Err), r = .error e → ∃ (kind : ErrorKind), HasCode e (errCode kind) ∧ res = .error (errorText kind))
    ∧ (r = .ok [] → res = .ok none)
    ∧ ∀ (results : List Symbolized), r = .ok results → results ≠ [] →
        (∃ (gs : List GoSym), res = .ok (some gs) ∧ List.Forall₂ Shows results gs)
        ∨ (res = .error (errorText .outOfMemory) ∧ ∃ (t : Store), alloc t (bufSize results) 8 = none)

/-- One symbolizer takes on another state, and nothing else happens to symbolizers. -/
def OnlyChanged (prog prog' : Program M) (o : Object M) (state : State M (KernelCache M)) : Prop :=
  ∀ (x : Object M), x ∈ prog'.objects ↔ (x ∈ prog.objects ∧ x.addr ≠ o.addr) ∨ x = { o with state }

end Blazesym.Go
