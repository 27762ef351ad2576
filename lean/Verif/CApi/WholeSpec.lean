import Verif.CApi.NormProgramSpec
import Verif.CApi.InspProgramSpec
import Verif.CApi.Whole

/-! # What programs that use all of the C interface can rely on -/

set_option autoImplicit false

namespace Blazesym.CApi

variable {M : Type} [DecidableEq M]

/-- The results that were handed out and not freed yet. -/
structure Account where
  syms : List Handed
  norms : List (Given UserOutput)
  insps : List (Given (List (List SymInfo)))

/-- Further conditions on the requests that reach symbolizers, normalizers and inspectors. -/
structure Conditions (M : Type) where
  sym : SymbolizerOpts → Symbolize.State M (Symbolize.KernelCache M) → Symbolize.World M → Spec.Symbolize.Call → Prop
  norm : Normalize.Builder → Normalize.Normalizer M → Normalize.World M → Spec.Normalize.Call → Prop
  insp : Inspect.World M → Inspect.Source → Prop

/-- The memory of symbolizers and their results. -/
def Whole.symBlocks (p : Platform) (x : Whole M) (a : Account) : List Block := libraryBlocks p x.syms a.syms

/-- The memory of normalizers and their results. -/
def Whole.normBlocks (n : Sizes) (x : Whole M) (a : Account) : List Block := x.norms.library n.norm a.norms

/-- The memory of inspectors and their results. -/
def Whole.inspBlocks (n : Sizes) (x : Whole M) (a : Account) : List Block := x.insps.library n.insp a.insps

/-- All memory that belongs to the library. -/
def Whole.library (p : Platform) (n : Sizes) (x : Whole M) (a : Account) : List Block :=
  x.symBlocks p a ++ (x.normBlocks n a ++ x.inspBlocks n a)

/-- The rules for calls: only what was handed out is freed, and by the function for it. -/
def WholeAbides (p : Platform) (ok : Conditions M) (x : Whole M) (a : Account) (w : Normalize.World M) : WholeCall → Prop
  | .sym c => Abides p ok.sym x.syms a.syms w.toSession c
  | .norm c => NormAbides p.tools ok.norm x.norms a.norms w c
  | .insp c => InspAbides p.tools ok.insp x.insps a.insps w.toSession.toWorld c

/-- How calls change the account of results. -/
def WholeAccounts (p : Platform) (x x' : Whole M) (w : Normalize.World M) (ret : Nat) (a a' : Account) : WholeCall → Prop
  | .sym c => a' = { a with syms := account p x.syms w.toSession ret a.syms c }
  | .norm c => ∃ (gs : List (Given UserOutput)), NormAccounts p.tools x.norms x'.norms w c ret a.norms gs
      ∧ a' = { a with norms := gs }
  | .insp c => ∃ (gs : List (Given (List (List SymInfo)))),
      InspAccounts p.tools x.insps x'.insps w.toSession.toWorld c ret a.insps gs ∧ a' = { a with insps := gs }

/-- The programs there are: they make calls of all kinds in any order, by any threads and in any worlds, and do what
they want with memory that is their own.  The last error may also be set by functions of the library that have
nothing to do with objects; the memory those allocate counts as memory of the program. -/
inductive WholeRuns (p : Platform) (n : Sizes) (alloc : Allocator) (ok : Conditions M) :
    Whole M → Account → List Block → Prop where
  | start (s : Store) : s.Valid → WholeRuns p n alloc ok ⟨s, LastErr.init, [], [], []⟩ ⟨[], [], []⟩ s.blocks
  | own (x : Whole M) (a : Account) (os os' : List Block) (s' : Store) : WholeRuns p n alloc ok x a os →
      OwnWork (x.library p n a) os' x.store s' → WholeRuns p n alloc ok { x with store := s' } a os'
  | error (x : Whole M) (a : Account) (os : List Block) (thread : Nat) (err : Int) : WholeRuns p n alloc ok x a os →
      WholeRuns p n alloc ok { x with errs := x.errs.set thread err } a os
  | call (x x' : Whole M) (a a' : Account) (os : List Block) (w : Normalize.World M) (thread ret : Nat) (c : WholeCall) :
      WholeRuns p n alloc ok x a os → WholeAbides p ok x a w c → x.step p n alloc w thread c = .ok (ret, x') →
      WholeAccounts p x x' w ret a a' c → WholeRuns p n alloc ok x' a' os

/-- What a call may do besides what it is for: memory that was in use and still is has its contents, and at most the
last error of the thread is set. -/
structure Moved (s s' : Store) (errs errs' : LastErr) (thread : Nat) : Prop where
  kept : ∀ (b : Block), b ∈ s.blocks → b ∈ s'.blocks → Unchanged s.mem s'.mem [b]
  errs : errs' = errs ∨ ∃ (err : Int), errs' = errs.set thread err

/-- Seen by each part of the library, the others are part of the program. -/
structure Views (p : Platform) (n : Sizes) (alloc : Allocator) (ok : Conditions M) (x : Whole M) (a : Account)
    (os : List Block) : Prop where
  sym : Runs p alloc ok.sym x.syms a.syms (x.normBlocks n a ++ x.inspBlocks n a ++ os)
  norm : NormRuns p.tools n.norm alloc ok.norm x.norms a.norms (x.symBlocks p a ++ x.inspBlocks n a ++ os)
  insp : InspRuns p.tools n.insp alloc ok.insp x.insps a.insps (x.symBlocks p a ++ x.normBlocks n a ++ os)

/-- The objects of the other kinds, their results and the memory of the program are not touched, and at most the last
error of the thread is set. -/
def Untouched (p : Platform) (n : Sizes) (x x' : Whole M) (a : Account) (os : List Block) (thread : Nat) : WholeCall → Prop
  | .sym _ => x'.normalizers = x.normalizers ∧ x'.inspectors = x.inspectors ∧ (∀ (t : Nat), t ≠ thread → x'.errs t = x.errs t) ∧
      Unchanged x.store.mem x'.store.mem (x.normBlocks n a ++ x.inspBlocks n a ++ os)
  | .norm _ => x'.symbolizers = x.symbolizers ∧ x'.inspectors = x.inspectors ∧ (∀ (t : Nat), t ≠ thread → x'.errs t = x.errs t) ∧
      Unchanged x.store.mem x'.store.mem (x.symBlocks p a ++ x.inspBlocks n a ++ os)
  | .insp _ => x'.symbolizers = x.symbolizers ∧ x'.normalizers = x.normalizers ∧ (∀ (t : Nat), t ≠ thread → x'.errs t = x.errs t) ∧
      Unchanged x.store.mem x'.store.mem (x.symBlocks p a ++ x.normBlocks n a ++ os)

end Blazesym.CApi
