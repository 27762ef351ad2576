import Verif.CApi.WholeLemmas
import Verif.CApi.ProgramProps
import Verif.CApi.NormProgramProps
import Verif.CApi.InspProgramProps

/-! Property theorems C95 (programs that use all of the C interface). -/

set_option autoImplicit false

namespace Blazesym.CApi

variable {M : Type} [DecidableEq M] {p : Platform} {n : Sizes} {alloc : Allocator} {ok : Conditions M} {x : Whole M}
  {a : Account} {os : List Block}

section
variable (ha : GoodAllocator alloc) (hp : 0 < p.boxSize) (hn : 0 < n.norm) (hi : 0 < n.insp)
  (hrun : WholeRuns p n alloc ok x a os)
include ha hp hn hi hrun

/-- **C95** Whatever a program does with symbolizers, normalizers and inspectors: as far as symbolizers are concerned,
it is one of those of C87, as far as normalizers are concerned, one of those of C90, and as far as inspectors are
concerned, one of those of C91; what the others do looks as if the program itself did it.  So what is said there about
calls holds here. -/
theorem C95_views : Views p n alloc ok x a os := views_of_runs ha hp hn hi hrun

/-- **C95** (objects) Each symbolizer, normalizer and inspector is one that a Rust program can have that makes the
calls this one was used for; none is affected by calls for others. -/
theorem C95_objects :
    (∀ (o : Object M), o ∈ x.symbolizers → Spec.Symbolize.Reachable (settingsOf p o.opts) (ok.sym o.opts) o.state) ∧
    (∀ (o : Tool Normalize.Builder (Normalize.Normalizer M)), o ∈ x.normalizers →
      Spec.Normalize.Reachable (o.opts.build p.tools) (ok.norm o.opts) o.state) ∧
    ∀ (o : Tool Unit (Inspect.Inspector M)), o ∈ x.inspectors → Spec.Inspect.Reachable p.tools ok.insp o.state :=
  ⟨C87_objects ha hp (C95_views ha hp hn hi hrun).sym, C90_objects ha hn (C95_views ha hp hn hi hrun).norm,
    C91_objects ha hi (C95_views ha hp hn hi hrun).insp⟩

/-- **C95** (results) All results that were handed out stay what they were until they are freed. -/
theorem C95_results :
    (∀ (h : Handed), h ∈ a.syms → ResultsAt x.store.mem h.ptr h.results) ∧
    (∀ (g : Given UserOutput), g ∈ a.norms →
      ∃ (bs : List Block), bs.Perm g.blocks ∧ UserOutputAt x.store.mem g.ptr g.result bs) ∧
    ∀ (g : Given (List (List SymInfo))), g ∈ a.insps → ListsAt x.store.mem g.ptr g.result :=
  ⟨fun h hh => (C87_results ha hp (C95_views ha hp hn hi hrun).sym h hh).1,
    fun g hg => (C90_results ha hn (C95_views ha hp hn hi hrun).norm g hg).1,
    fun g hg => (C91_results ha hi (C95_views ha hp hn hi hrun).insp g hg).1⟩

/-- **C95** (memory) The memory in use is that of the objects and of the results that were not freed, of all kinds, and
the program's own; no two of them overlap. -/
theorem C95_memory : x.store.blocks.Perm (x.library p n a ++ os) ∧ x.store.Valid := by
  have h := C87_memory ha hp (C95_views ha hp hn hi hrun).sym
  refine ⟨?_, h.2⟩
  have h1 : x.store.blocks.Perm (x.symBlocks p a ++ (x.normBlocks n a ++ x.inspBlocks n a ++ os)) := h.1
  rw [Whole.library, List.append_assoc]
  exact h1

/-- **C95** (memory) If everything has been freed, only the program's own memory is in use. -/
theorem C95_all_freed (h1 : x.symbolizers = []) (h2 : x.normalizers = []) (h3 : x.inspectors = [])
    (h4 : a = ⟨[], [], []⟩) : x.store.blocks.Perm os := by
  have := (C95_memory ha hp hn hi hrun).1
  subst h4
  simp only [Whole.library, Whole.symBlocks, Whole.normBlocks, Whole.inspBlocks, libraryBlocks, Host.library, Whole.syms,
    Whole.norms, Whole.insps, h1, h2, h3] at this
  exact this

/-- **C95** (calls) A call for one kind of objects touches no object or result of another kind, no memory of the
program, and no other thread's last error. -/
theorem C95_untouched (w : Normalize.World M) (thread ret : Nat) (c : WholeCall) (x' : Whole M)
    (hab : WholeAbides p ok x a w c) (hc : x.step p n alloc w thread c = .ok (ret, x')) (a' : Account)
    (hacc : WholeAccounts p x x' w ret a a' c) : Untouched p n x x' a os thread c := by
  have hv := C95_views ha hp hn hi hrun
  have herr : ∀ (errs errs' : LastErr), (errs' = errs ∨ ∃ (err : Int), errs' = errs.set thread err) →
      ∀ (t : Nat), t ≠ thread → errs' t = errs t := by
    rintro errs errs' (rfl | ⟨err, rfl⟩) t ht
    · rfl
    · exact if_neg ht
  have hkept : ∀ (l l' os' : List Block) (s' : Store), x.store.blocks.Perm (l ++ os') → s'.blocks.Perm (l' ++ os') →
      (∀ (b : Block), b ∈ x.store.blocks → b ∈ s'.blocks → Unchanged x.store.mem s'.mem [b]) →
      Unchanged x.store.mem s'.mem os' := fun l l' os' s' h1 h2 h3 b hb =>
    h3 b (h1.mem_iff.2 (List.mem_append_right _ hb)) (h2.mem_iff.2 (List.mem_append_right _ hb)) b (List.mem_singleton_self b)
  cases c with
  | sym c =>
    obtain ⟨prog', h1, rfl⟩ := sym_step hc
    have hab : Abides p ok.sym x.syms a.syms w.toSession c := hab
    have hb := inv_of_runs ha hp hv.sym
    have hm := hb.step_moved ha hp hab h1
    exact ⟨rfl, rfl, herr _ _ hm.errs, hkept _ _ _ _ hb.blocks (hb.step ha hp hab h1).blocks hm.kept⟩
  | norm c =>
    obtain ⟨host', h1, rfl⟩ := norm_step_of hc
    obtain ⟨gs, hacc, _⟩ := hacc
    have hab : NormAbides p.tools ok.norm x.norms a.norms w c := hab
    have hb := inv_of_normRuns ha hn hv.norm
    have hm := norm_step_moved hb ha hn hab h1
    exact ⟨rfl, rfl, herr _ _ hm.errs, hkept _ _ _ _ hb.blocks (norm_step hb ha hn hab h1 hacc).blocks hm.kept⟩
  | insp c =>
    obtain ⟨host', h1, rfl⟩ := insp_step_of hc
    obtain ⟨gs, hacc, _⟩ := hacc
    have hab : InspAbides p.tools ok.insp x.insps a.insps w.toSession.toWorld c := hab
    have hb := inv_of_inspRuns ha hi hv.insp
    have hm := insp_step_moved hb ha hi hab h1
    exact ⟨rfl, rfl, herr _ _ hm.errs, hkept _ _ _ _ hb.blocks (insp_step hb ha hi hab h1 hacc).blocks hm.kept⟩

end

/-- **C95** (calls) A call does to its kind of objects what it does in a program that has no others, and comes back if
it does there. -/
theorem C95_calls (w : Normalize.World M) (thread : Nat) :
    (∀ (c : SymCall), (x.step p n alloc w thread (.sym c)).map (fun r => (r.1, r.2.syms))
      = x.syms.step p alloc w.toSession thread c) ∧
    (∀ (c : NormCall), (x.step p n alloc w thread (.norm c)).map (fun r => (r.1, r.2.norms))
      = normStep p.tools n.norm alloc w thread x.norms c) ∧
    ∀ (c : InspCall), (x.step p n alloc w thread (.insp c)).map (fun r => (r.1, r.2.insps))
      = inspStep p.tools n.insp alloc w.toSession.toWorld thread x.insps c := by
  refine ⟨fun c => ?_, fun c => ?_, fun c => ?_⟩ <;> simp only [Whole.step]
  · cases x.syms.step p alloc w.toSession thread c <;> rfl
  · cases normStep p.tools n.norm alloc w thread x.norms c <;> rfl
  · cases inspStep p.tools n.insp alloc w.toSession.toWorld thread x.insps c <;> rfl

/-! ## An example -/

open Blazesym.Normalize (exNorm)

/-- The program of C90 before it has done anything. -/
def demoWholeBegin : Whole Nat := ⟨demoNormMemory, LastErr.init, [], [], []⟩

/-- The program after a call. -/
def demoWholeCall (x : Whole Nat) (c : WholeCall) : Whole Nat :=
  match x.step demoPlatform ⟨64, 48⟩ bump (exNorm 0 1) 1 c with
  | .ok (_, x') => x'
  | .error _ => x

/-- It creates a normalizer. -/
def demoWhole1 : Whole Nat := demoWholeCall demoWholeBegin (.norm (.newOpts 4096))

/-- It creates a symbolizer. -/
def demoWhole2 : Whole Nat := demoWholeCall demoWhole1 (.sym .new)

/-- It creates an inspector. -/
def demoWhole3 : Whole Nat := demoWholeCall demoWhole2 (.insp .new)

set_option maxRecDepth 20000 in
theorem demoWhole1_step :
    demoWholeBegin.step demoPlatform ⟨64, 48⟩ bump (exNorm 0 1) 1 (.norm (.newOpts 4096)) = .ok (4200, demoWhole1) := by rfl

set_option maxRecDepth 20000 in
theorem demoWhole2_step :
    demoWhole1.step demoPlatform ⟨64, 48⟩ bump (exNorm 0 1) 1 (.sym .new) = .ok (4264, demoWhole2) := by rfl

set_option maxRecDepth 20000 in
theorem demoWhole3_step :
    demoWhole2.step demoPlatform ⟨64, 48⟩ bump (exNorm 0 1) 1 (.insp .new) = .ok (4272, demoWhole3) := by rfl

/-- The program with one object of each kind is one of those that the theorems are about. -/
theorem demoWhole3_runs (ok : Conditions Nat) :
    WholeRuns demoPlatform ⟨64, 48⟩ bump ok demoWhole3 ⟨[], [], []⟩ [⟨4096, 104, 8⟩] := by
  have h1 : WholeRuns demoPlatform ⟨64, 48⟩ bump ok demoWhole1 ⟨[], [], []⟩ [⟨4096, 104, 8⟩] :=
    .call demoWholeBegin _ _ _ _ (exNorm 0 1) 1 4200 (.norm (.newOpts 4096)) (.start demoNormMemory demoNormMemory_valid)
      (by refine ⟨?_, ?_⟩; · intro _ h; cases h
          · intro _ _ _ _ h; cases h) demoWhole1_step ⟨[], rfl, rfl⟩
  have h2 : WholeRuns demoPlatform ⟨64, 48⟩ bump ok demoWhole2 ⟨[], [], []⟩ [⟨4096, 104, 8⟩] :=
    .call _ _ _ _ _ (exNorm 0 1) 1 4264 (.sym .new) h1 trivial demoWhole2_step rfl
  exact .call _ _ _ _ _ (exNorm 0 1) 1 4272 (.insp .new) h2
    (by refine ⟨?_, ?_⟩; · intro _ h; cases h
        · intro _ _ _ _ _ _ _ _ h; cases h) demoWhole3_step ⟨[], rfl, rfl⟩

set_option maxRecDepth 20000 in
/-- There are an object of each kind. -/
example : demoWhole3.symbolizers.map (·.addr) = [4264] ∧ demoWhole3.normalizers.map (·.addr) = [4200]
    ∧ demoWhole3.inspectors.map (·.addr) = [4272] := by
  refine ⟨?_, ?_, ?_⟩ <;> rfl

/-- The theorems apply to the program. -/
example (ok : Conditions Nat) :
    demoWhole3.store.blocks.Perm (demoWhole3.library demoPlatform ⟨64, 48⟩ ⟨[], [], []⟩ ++ [⟨4096, 104, 8⟩]) :=
  (C95_memory bump_good (by decide) (by decide) (by decide) (demoWhole3_runs ok)).1

set_option maxRecDepth 20000 in
/-- It normalizes addresses, the result is handed out, and when it and the objects are freed in another order nothing but
the program's own memory is in use. -/
example :
    (demoWhole3.step demoPlatform ⟨64, 48⟩ bump (exNorm 0 1) 1 (.norm (.normalizeOpts 4200 7 4128 5 4168))).toOption.map
      (fun r => (r.1 != 0, (demoWholeCall (demoWholeCall (demoWholeCall (demoWholeCall r.2 (.sym (.free 4264)))
        (.norm (.free 4200))) (.insp (.free 4272))) (.norm (.outputFree r.1))).store.blocks)) =
        some (true, [⟨4096, 104, 8⟩]) := by
  decide +kernel

/-- Freeing the symbolizer leaves the normalizer, the inspector and the memory of the program as they are. -/
example (ok : Conditions Nat) (ret : Nat) (x' : Whole Nat)
    (hc : demoWhole3.step demoPlatform ⟨64, 48⟩ bump (exNorm 0 1) 1 (.sym (.free 4264)) = .ok (ret, x')) :
    Untouched demoPlatform ⟨64, 48⟩ demoWhole3 x' ⟨[], [], []⟩ [⟨4096, 104, 8⟩] 1 (.sym (.free 4264)) :=
  C95_untouched bump_good (by decide) (by decide) (by decide) (demoWhole3_runs ok) (exNorm 0 1) 1 ret _ x' trivial hc _ rfl

end Blazesym.CApi
