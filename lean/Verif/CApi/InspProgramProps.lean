import Verif.CApi.InspProgramLemmas
import Verif.CApi.ProgramProps
import Verif.Session.InspectorProps

/-! Property theorems C91 (C programs with inspectors). -/

set_option autoImplicit false

namespace Blazesym.CApi

open Blazesym.Error Blazesym.Inspect
open Blazesym.Spec.Inspect (Reachable lookupNow Orderly SameContents Alike)

variable {M : Type} [DecidableEq M] {tools : Dwarf.Tools} {size : Nat} {alloc : Allocator}
  {ok : World M → Inspect.Source → Prop} {host : InspHost M} {gs : List (Given (List (List SymInfo)))} {os : List Block}

section
variable (ha : GoodAllocator alloc) (hz : 0 < size) (hrun : InspRuns tools size alloc ok host gs os)
include ha hz hrun

/-- **C91** (inspectors) Whatever a C program has done, with any number of inspectors and threads and any use of
its own memory: each of its inspectors is one that a Rust program can have. -/
theorem C91_objects (o : Tool Unit (Inspector M)) (ho : o ∈ host.tools) : Reachable tools ok o.state :=
  (inv_of_inspRuns ha hz hrun).tools o ho

/-- **C91** (results) Results that were handed out stay what they were until they are freed. -/
theorem C91_results (g : Given (List (List SymInfo))) (hg : g ∈ gs) :
    ListsAt host.store.mem g.ptr g.result ∧ ∀ (b : Block), b ∈ g.blocks → b ∈ host.store.blocks :=
  ⟨((inv_of_inspRuns ha hz hrun).results g hg).at, (inv_of_inspRuns ha hz hrun).given_blocks hg⟩

/-- **C91** (memory) The memory in use is that of the inspectors and of the results that were not freed, and the
program's own; no two of them overlap. -/
theorem C91_memory : host.store.blocks.Perm (host.library size gs ++ os) ∧ host.store.Valid :=
  ⟨(inv_of_inspRuns ha hz hrun).blocks, (inv_of_inspRuns ha hz hrun).valid⟩

/-- **C91** (memory) If all inspectors and results have been freed, only the program's own memory is in use. -/
theorem C91_all_freed (ho : host.tools = []) (hg : gs = []) : host.store.blocks.Perm os := by
  have := (inv_of_inspRuns ha hz hrun).blocks
  rw [Host.library, ho, hg] at this
  exact this

/-- **C91** (requests) What a call for symbols does: the inspector answers the request, and becomes what it becomes
by this request.  If it panics, the program is aborted; an error is reported by its code, with `NULL`; and a result
by a pointer to it.  If there is no memory for the result, this is reported too, unless the result would be larger
than any memory can be. -/
theorem C91_inspect (w : World M) (thread : Nat) {o : Tool Unit (Inspector M)} (ho : o ∈ host.tools)
    {src names cnt : Nat} {path : Bytes} {debugSyms : Bool} {strs : List Bytes}
    (h : InspectArgs host.store.mem src names cnt path debugSyms strs) (hu : ∀ (s : Bytes), s ∈ strs → isUtf8 s = true)
    {r : Except Err (List (List SymInfo))} {state : Inspector M}
    (hr : o.state.lookup tools w (.elf path debugSyms) strs = (r, state)) (hfit : FitLists r)
    {out : Except Fault (Nat × InspHost M)}
    (hout : inspStep tools size alloc w thread host (.inspect o.addr src names cnt) = out) :
    (r = .error .panic → out = .error .abort) ∧
    (∀ (e : Err), e ≠ .panic → r = .error e → ∃ (host' : InspHost M) (code : Int), out = .ok (0, host') ∧ HasCode e code
      ∧ HostChanged host host' o state thread code ∧ host'.store = host.store) ∧
    ∀ (lists : List (List SymInfo)), r = .ok lists →
      (∃ (ptr : Nat) (host' : InspHost M), out = .ok (ptr, host') ∧ HostChanged host host' o state thread 0
        ∧ InspHandsOut host host' ptr lists) ∨
      (∃ (host' : InspHost M), out = .ok (0, host') ∧ HostChanged host host' o state thread (-12)
        ∧ host'.store = host.store ∧ ∃ (n : Nat), alloc host.store n 8 = none) ∨
      (out = .error .badLayout ∧ 2 ^ 63 - 8 < listsBufSize lists) := by
  have hinv := inv_of_inspRuns ha hz hrun
  have hsame : ∀ (y : Tool Unit (Inspector M)), y ∈ host.tools → y.addr = o.addr → y = o :=
    fun y hy h => hinv.same_tool hz hy ho h
  have hout : inspectIn tools alloc w host thread o.addr src names cnt = out := hout
  obtain ⟨c1, c2, c3⟩ := inspect_cases (tools := tools) (thread := thread) ha hinv.valid (hinv.tool_eq hz ho) h hu hr
  subst hout
  refine ⟨c1, ?_, ?_⟩
  · intro e he hre
    exact ⟨_, _, c2 e he hre, hasCode e he, hostChanged_next hsame ho _ _ _ _, rfl⟩
  · intro lists hre
    obtain ⟨d1, d2, d3⟩ := c3 lists hre hfit
    by_cases hs : listsBufSize lists ≤ 2 ^ 63 - 8
    · cases hal : alloc host.store (listsBufSize lists) 8 with
      | none => exact .inr (.inl ⟨_, d2 hs hal, hostChanged_next hsame ho _ _ _ _, rfl, _, hal⟩)
      | some base =>
        obtain ⟨store, k1, k2, k3, k4⟩ := d3 base hs hal
        exact .inl ⟨_, _, k1, hostChanged_next hsame ho _ _ _ _, by omega, k4.at, ⟨_, k3⟩, k2.same⟩
    · exact .inr (.inr ⟨d1 (by omega), by omega⟩)

/-- **C91** (requests; negative) A name that is not UTF-8 is no error: the program is aborted. -/
theorem C91_name_wrong (w : World M) (thread : Nat) {o : Tool Unit (Inspector M)} (ho : o ∈ host.tools)
    {src names cnt : Nat} {path : Bytes} {debugSyms : Bool} {strs : List Bytes}
    (h : InspectArgs host.store.mem src names cnt path debugSyms strs) (s : Bytes) (hs : s ∈ strs) (hu : isUtf8 s = false) :
    inspStep tools size alloc w thread host (.inspect o.addr src names cnt) = .error .abort := by
  have := inspect_eq (tools := tools) (alloc := alloc) (w := w) (thread := thread)
    ((inv_of_inspRuns ha hz hrun).tool_eq hz ho) h
  rw [utf8Strings_bad hs hu] at this
  exact this

/-- **C91** (requests) A source that cannot be read is reported by its error; nothing else happens. -/
theorem C91_bad_source (w : World M) (thread insp src names cnt : Nat) (e : ErrorKind)
    (h : inputAs host.store.mem src .inspectElf (inspectElf host.store.mem) = .ok (.error e)) :
    ∃ (host' : InspHost M), inspStep tools size alloc w thread host (.inspect insp src names cnt) = .ok (0, host')
      ∧ HostRefused host host' thread (errCode e) := by
  refine ⟨host.report thread (errCode e), ?_, rfl, rfl, hostError_set _ _ _ _ rfl⟩
  show inspectIn tools alloc w host thread insp src names cnt = _
  unfold inspectIn
  simp only [h, bind, Except.bind]
  rfl

/-- **C91** (creation) Creating an inspector.  If there is no memory the program is aborted. -/
theorem C91_create (w : World M) (thread : Nat) :
    (alloc host.store size 8 = none → inspStep tools size alloc w thread host .new = .error .outOfMemory) ∧
    ∀ (addr : Nat), alloc host.store size 8 = some addr → ∃ (host' : InspHost M),
      inspStep tools size alloc w thread host .new = .ok (addr, host')
      ∧ HostCreated size host host' addr () Inspector.new thread :=
  (inv_of_inspRuns ha hz hrun).create_spec ha hz thread () _

/-- **C91** (freeing) An inspector can be freed at any time: it is gone, with its memory, and nothing else is
changed, not even the last error. -/
theorem C91_free (w : World M) (thread : Nat) :
    inspStep tools size alloc w thread host (.free 0) = .ok (0, host) ∧
    ∀ (o : Tool Unit (Inspector M)), o ∈ host.tools → ∃ (host' : InspHost M),
      inspStep tools size alloc w thread host (.free o.addr) = .ok (0, host') ∧ HostDestroyed size host host' o.addr := by
  refine ⟨rfl, fun o ho => ?_⟩
  obtain ⟨host', k1, k2, _⟩ := (inv_of_inspRuns ha hz hrun).destroy_spec hz ho
  exact ⟨host', k1, k2⟩

/-- **C91** (freeing) Results can be freed at any time, also when the inspector they are from is gone. -/
theorem C91_free_results (w : World M) (thread : Nat) :
    inspStep tools size alloc w thread host (.symsFree 0) = .ok (0, host) ∧
    ∀ (g : Given (List (List SymInfo))), g ∈ gs → ∃ (host' : InspHost M),
      inspStep tools size alloc w thread host (.symsFree g.ptr) = .ok (0, host') ∧ HostReleased host host' g := by
  refine ⟨rfl, fun g hg => ?_⟩
  obtain ⟨store, k1, _, k3⟩ := (inv_of_inspRuns ha hz hrun).release listsThere_stable listsFree_spec (fun _ => rfl)
    (.inr ⟨g, hg, rfl⟩) rfl
  refine ⟨_, ?_, k3 g hg rfl⟩
  simp only [inspStep, k1, bind, Except.bind]
  rfl

end

/-- What a C program gets for an answer: a pointer to it, if it fits into memory, or the code of the error. -/
def Answered (alloc : Allocator) (host : InspHost M) (thread : Nat) (answer : Except Err (List (List SymInfo)))
    (out : Except Fault (Nat × InspHost M)) : Prop :=
  match answer with
  | .error .panic => out = .error .abort
  | .error e => ∃ (host' : InspHost M) (code : Int), out = .ok (0, host') ∧ HasCode e code ∧ HostError host host' thread code
      ∧ host'.store = host.store
  | .ok lists =>
      (∃ (ptr : Nat) (host' : InspHost M), out = .ok (ptr, host') ∧ InspHandsOut host host' ptr lists
        ∧ HostError host host' thread 0) ∨
      (∃ (host' : InspHost M), out = .ok (0, host') ∧ HostError host host' thread (-12) ∧ host'.store = host.store
        ∧ ∃ (n : Nat), alloc host.store n 8 = none) ∨
      (out = .error .badLayout ∧ 2 ^ 63 - 8 < listsBufSize lists)

theorem answered_of (ha : GoodAllocator alloc) (hz : 0 < size) (hrun : InspRuns tools size alloc ok host gs os)
    (w : World M) (thread : Nat) {o : Tool Unit (Inspector M)} (ho : o ∈ host.tools)
    {src names cnt : Nat} {path : Bytes} {debugSyms : Bool} {strs : List Bytes}
    (h : InspectArgs host.store.mem src names cnt path debugSyms strs) (hu : ∀ (s : Bytes), s ∈ strs → isUtf8 s = true)
    (hfit : FitLists (o.state.lookup tools w (.elf path debugSyms) strs).1) :
    Answered alloc host thread (o.state.lookup tools w (.elf path debugSyms) strs).1
      (inspStep tools size alloc w thread host (.inspect o.addr src names cnt)) := by
  obtain ⟨r, state, hr⟩ : ∃ r state, o.state.lookup tools w (.elf path debugSyms) strs = (r, state) := ⟨_, _, rfl⟩
  rw [hr] at hfit ⊢
  obtain ⟨c1, c2, c3⟩ := C91_inspect ha hz hrun w thread ho h hu hr hfit rfl
  simp only
  unfold Answered
  split
  · exact c1 rfl
  · rename_i e he
    obtain ⟨host', code, k1, k2, k3, k4⟩ := c2 e (fun h => he h) rfl
    exact ⟨host', code, k1, k2, k3.errs, k4⟩
  · rename_i lists
    rcases c3 lists rfl with ⟨ptr, host', k1, k2, k3⟩ | ⟨host', k1, k2, k3, k4⟩ | k
    · exact .inl ⟨ptr, host', k1, k3, k2.errs⟩
    · exact .inr (.inl ⟨host', k1, k2.errs, k3, k4⟩)
    · exact .inr (.inr k)

/-- **C91** (what is reported; partial: see C67, orderly histories, and names that are UTF-8) Whatever the program
did before: what it is told about names is what is in the file that is at the path now, and in its debug
information. -/
theorem C91_lookup_partial (ha : GoodAllocator alloc) (hz : 0 < size)
    (u : Spec.Universe Bytes M (Except Err Bytes) Dwarf.ElfParser Dwarf.DebugData) (hparse : u.parse = Dwarf.elfParse)
    (hrun : InspRuns tools size alloc (Orderly tools u) host gs os)
    (w : World M) (thread : Nat) {o : Tool Unit (Inspector M)} (ho : o ∈ host.tools)
    {src names cnt : Nat} {path : Bytes} {debugSyms : Bool} {strs : List Bytes}
    (h : InspectArgs host.store.mem src names cnt path debugSyms strs) (hu : ∀ (s : Bytes), s ∈ strs → isUtf8 s = true)
    (hw : Orderly tools u w (.elf path debugSyms)) (hfit : FitLists (lookupNow tools w (.elf path debugSyms) strs)) :
    Answered alloc host thread (lookupNow tools w (.elf path debugSyms) strs)
      (inspStep tools size alloc w thread host (.inspect o.addr src names cnt)) := by
  have := C67_debug_lookup_partial tools u hparse o.state (C91_objects ha hz hrun o ho) w path debugSyms hw strs
  rw [← this] at hfit ⊢
  exact answered_of ha hz hrun w thread ho h hu hfit

/-- **C91** (what is reported) The same without debug information, for all programs whose files do not change their
contents, except that the module of the symbols may be another path of the file (see C67). -/
theorem C91_plain_lookup_partial (ha : GoodAllocator alloc) (hz : 0 < size) (contents : M → Except Err (Except Err Bytes))
    (hrun : InspRuns tools size alloc (SameContents contents) host gs os)
    (w : World M) (hw : w.disk.contents = contents) (thread : Nat) {o : Tool Unit (Inspector M)} (ho : o ∈ host.tools)
    {src names cnt : Nat} {path : Bytes} {strs : List Bytes}
    (h : InspectArgs host.store.mem src names cnt path false strs) (hu : ∀ (s : Bytes), s ∈ strs → isUtf8 s = true)
    (hfit : FitLists (o.state.lookup tools w (.elf path false) strs).1) :
    ∃ (answer : Except Err (List (List SymInfo))),
      (match answer, lookupNow tools w (.elf path false) strs with
        | .error e, .error e' => e = e'
        | .ok syms, .ok syms' => List.Forall₂ (List.Forall₂ Alike) syms syms'
        | _, _ => False) ∧
      Answered alloc host thread answer (inspStep tools size alloc w thread host (.inspect o.addr src names cnt)) :=
  ⟨_, C67_elf_lookup_partial tools contents o.state (C91_objects ha hz hrun o ho) w hw path strs,
    answered_of ha hz hrun w thread ho h hu hfit⟩

/-! ### Examples -/

open Blazesym.Dwarf (exTools)

/-- The memory of a program: a `blaze_inspect_elf_src`, an array with one name, the path, and the name. -/
def demoInspMemory : Store :=
  ⟨fun x => (leBytes 8 40 ++ leBytes 8 4144 ++ List.replicate 24 0 ++ leBytes 8 4151
      ++ ascii "/bin/c" ++ [0] ++ ascii "f" ++ [0])[x - 4096]?, [⟨4096, 64, 8⟩]⟩

theorem demoInspMemory_valid : demoInspMemory.Valid := by
  refine ⟨fun b hb => ?_, List.pairwise_singleton _ _⟩
  rw [show demoInspMemory.blocks = [⟨4096, 64, 8⟩] from rfl, List.mem_singleton] at hb
  subst hb; decide

/-- The program before it has done anything. -/
def demoInspBegin : InspHost Nat := ⟨demoInspMemory, LastErr.init, []⟩

/-- The program after a call. -/
def demoInspCall (w : World Nat) (host : InspHost Nat) (c : InspCall) : InspHost Nat :=
  match inspStep exTools 64 bump w 1 host c with
  | .ok (_, host') => host'
  | .error _ => host

/-- The program when it has created an inspector. -/
def demoInspCreated : InspHost Nat := demoInspCall (exWorld false) demoInspBegin .new

set_option maxRecDepth 20000 in
theorem demoInspCreated_step :
    inspStep exTools 64 bump (exWorld false) 1 demoInspBegin .new = .ok (4160, demoInspCreated) := by rfl

set_option maxRecDepth 20000 in
theorem demoInspCreated_tools : demoInspCreated.tools = [⟨4160, (), Inspector.new⟩] := by rfl

theorem demoInspCreated_runs (ok : World Nat → Inspect.Source → Prop) :
    InspRuns exTools 64 bump ok demoInspCreated [] [⟨4096, 64, 8⟩] :=
  .call demoInspBegin _ [] _ _ (exWorld false) 1 4160 .new (.start demoInspMemory demoInspMemory_valid)
    (by refine ⟨?_, ?_⟩; · intro _ h; cases h
        · intro _ _ _ _ _ _ _ h; cases h) demoInspCreated_step rfl

set_option maxRecDepth 20000 in
theorem demoInsp_args : InspectArgs demoInspCreated.store.mem 4096 4136 1 (ascii "/bin/c") false [ascii "f"] :=
  ⟨by rfl, [4151], by rfl, .cons (fromCStr_inv (by rfl)) .nil⟩

theorem demoInsp_orderly : Orderly exTools exUniverse (exWorld false) (.elf (ascii "/bin/c") false) := by
  refine ⟨rfl, ?_⟩
  intro m hm
  have h0 : (exWorld false).disk.stat (ascii "/bin/c") = .ok 2 := by decide +kernel
  have : m = 2 := by rw [h0] at hm; exact (Except.ok.inj hm).symm
  subst this
  exact ⟨rfl, fun h => by cases h⟩

/-- What is in the file. -/
def demoInspSyms : List (List SymInfo) :=
  match lookupNow exTools (exWorld false) (.elf (ascii "/bin/c") false) [ascii "f"] with
  | .ok lists => lists
  | .error _ => []

set_option maxRecDepth 20000 in
theorem demoInsp_now : lookupNow exTools (exWorld false) (.elf (ascii "/bin/c") false) [ascii "f"] = .ok demoInspSyms := by
  decide +kernel

set_option maxRecDepth 20000 in
theorem demoInsp_fits : FitLists (lookupNow exTools (exWorld false) (.elf (ascii "/bin/c") false) [ascii "f"]) := by
  rw [demoInsp_now]
  intro lists h infos hi info hx
  cases h
  have : demoInspSyms.all (fun infos => infos.all fun i => decide (i.addr < 2 ^ 64) && (match i.fileOffset with
      | none => true
      | some off => decide (off < 2 ^ 64))) = true := by decide +kernel
  have := List.all_eq_true.1 (List.all_eq_true.1 this infos hi) info hx
  rw [Bool.and_eq_true] at this
  refine ⟨of_decide_eq_true this.1, fun off ho => ?_⟩
  have := this.2
  rw [ho] at this
  exact of_decide_eq_true this

set_option maxRecDepth 20000 in
/-- The hypotheses of `C91_lookup_partial` are met, by a program that looks up a symbol of a file. -/
example : Answered bump demoInspCreated 1 (lookupNow exTools (exWorld false) (.elf (ascii "/bin/c") false) [ascii "f"])
    (inspStep exTools 64 bump (exWorld false) 1 demoInspCreated (.inspect 4160 4096 4136 1)) :=
  C91_lookup_partial bump_good (by decide) exUniverse rfl (demoInspCreated_runs _) (exWorld false) 1
    (o := ⟨4160, (), Inspector.new⟩) (by rw [demoInspCreated_tools]; exact List.mem_singleton_self _) demoInsp_args
    (by decide +kernel) demoInsp_orderly demoInsp_fits

set_option maxRecDepth 20000 in
/-- All of it: the result is handed out, and when it and the inspector are freed nothing but the program's own memory
is in use. -/
example :
    (inspStep exTools 64 bump (exWorld false) 1 demoInspCreated (.inspect 4160 4096 4136 1)).toOption.map (·.1)
      = some 4232 ∧
    (inspStep exTools 64 bump (exWorld false) 1 demoInspCreated (.inspect 4160 4096 4136 1)).toOption.map
      (fun r => (demoInspCall (exWorld false) (demoInspCall (exWorld false) r.2 (.free 4160)) (.symsFree r.1)).store.blocks) =
        some [⟨4096, 64, 8⟩] := by
  constructor <;> decide +kernel

set_option maxRecDepth 20000 in
/-- A result is accounted for: programs with results that were not freed exist. -/
example : ∃ (host : InspHost Nat) (gs : List (Given (List (List SymInfo)))) (os : List Block),
    InspRuns exTools 64 bump (Orderly exTools exUniverse) host gs os ∧ gs.map Given.result = [demoInspSyms]
      ∧ gs.map Given.ptr = [4232] := by
  have hl : ((Inspector.new : Inspector Nat).lookup exTools (exWorld false) (.elf (ascii "/bin/c") false) [ascii "f"]).1
      = .ok demoInspSyms := by decide +kernel
  have ho : (⟨4160, (), Inspector.new⟩ : Tool Unit (Inspector Nat)) ∈ demoInspCreated.tools := by
    rw [demoInspCreated_tools]; exact List.mem_singleton_self _
  have huniq : ∀ (path : Bytes) (debugSyms : Bool) (strs : List Bytes),
      InspectArgs demoInspCreated.store.mem 4096 4136 1 path debugSyms strs →
      path = ascii "/bin/c" ∧ debugSyms = false ∧ strs = [ascii "f"] := by
    rintro path debugSyms strs ⟨h1, ptrs, h2, h3⟩
    have e1 := h1.symm.trans demoInsp_args.src
    simp only [Except.ok.injEq, Prod.mk.injEq] at e1
    obtain ⟨ptrs', h2', h3'⟩ := demoInsp_args.names
    have e2 := h2.symm.trans h2'
    cases e2
    have e3 := (cstrings_of h3).symm.trans (cstrings_of h3')
    cases e3
    exact ⟨e1.1, e1.2, rfl⟩
  obtain ⟨_, _, c3⟩ := C91_inspect bump_good (by decide) (demoInspCreated_runs (Orderly exTools exUniverse)) (exWorld false) 1
    ho demoInsp_args (by decide +kernel)
    (r := .ok demoInspSyms) (state := ((Inspector.new : Inspector Nat).lookup exTools (exWorld false)
      (.elf (ascii "/bin/c") false) [ascii "f"]).2) (by rw [← hl])
    (by rw [← demoInsp_now]; exact demoInsp_fits) rfl
  have hret : (inspStep exTools 64 bump (exWorld false) 1 demoInspCreated (.inspect 4160 4096 4136 1)).toOption.map (·.1)
      = some 4232 := by decide +kernel
  rcases c3 demoInspSyms rfl with ⟨ptr, host', k1, _, k3⟩ | ⟨host', k1, _⟩ | ⟨k1, _⟩
  · have hp : ptr = 4232 := by rw [k1] at hret; exact Option.some.inj hret
    subst hp
    obtain ⟨b, hb⟩ := k3.blocks
    refine ⟨host', [⟨4232, demoInspSyms, [b]⟩], _, .call _ _ _ _ _ (exWorld false) 1 4232 (.inspect 4160 4096 4136 1)
      (demoInspCreated_runs _) ⟨(fun _ h => by cases h), ?_⟩ k1 ?_, rfl, rfl⟩
    · intro o src names cnt path debugSyms strs hm hc hargs
      rw [demoInspCreated_tools, List.mem_singleton] at hm
      subst hm
      cases hc
      obtain ⟨rfl, rfl, rfl⟩ := huniq _ _ _ hargs
      exact ⟨demoInsp_orderly, by rw [hl, ← demoInsp_now]; exact demoInsp_fits⟩
    · refine ⟨demoInspSyms, ?_, .inr ⟨[b], by decide, by rw [hb]; exact List.Perm.refl _, rfl⟩⟩
      intro o path debugSyms strs lists' hm _ hargs hl'
      rw [demoInspCreated_tools, List.mem_singleton] at hm
      subst hm
      obtain ⟨rfl, rfl, rfl⟩ := huniq _ _ _ hargs
      exact Except.ok.inj (hl.symm.trans hl')
  · rw [k1] at hret; cases hret
  · rw [k1] at hret; cases hret

/-- The same memory, with a name that is not UTF-8 and another source, whose reserved bytes are not zero. -/
def demoInspBadMemory : Store :=
  ⟨fun x => (leBytes 8 40 ++ leBytes 8 4144 ++ List.replicate 24 0 ++ leBytes 8 4151
      ++ ascii "/bin/c" ++ [0, 255, 0] ++ List.replicate 7 0
      ++ leBytes 8 40 ++ leBytes 8 4144 ++ List.replicate 23 0 ++ [1])[x - 4096]?, [⟨4096, 104, 8⟩]⟩

/-- The program with this memory when it has created an inspector. -/
def demoInspBad : InspHost Nat := demoInspCall (exWorld false) ⟨demoInspBadMemory, LastErr.init, []⟩ .new

set_option maxRecDepth 20000 in
theorem demoInspBad_runs (ok : World Nat → Inspect.Source → Prop) :
    InspRuns exTools 64 bump ok demoInspBad [] [⟨4096, 104, 8⟩] :=
  .call ⟨demoInspBadMemory, LastErr.init, []⟩ _ [] _ _ (exWorld false) 1 4200 .new (.start demoInspBadMemory (by
      refine ⟨fun b hb => ?_, List.pairwise_singleton _ _⟩
      rw [show demoInspBadMemory.blocks = [⟨4096, 104, 8⟩] from rfl, List.mem_singleton] at hb
      subst hb; decide))
    (by refine ⟨?_, ?_⟩; · intro _ h; cases h
        · intro _ _ _ _ _ _ _ h; cases h) (by rfl) rfl

set_option maxRecDepth 20000 in
/-- The hypotheses of `C91_name_wrong` are met. -/
example : inspStep exTools 64 bump (exWorld false) 1 demoInspBad (.inspect 4200 4096 4136 1) = .error .abort :=
  C91_name_wrong bump_good (by decide) (demoInspBad_runs fun _ _ => True) (exWorld false) 1
    (o := ⟨4200, (), Inspector.new⟩) (path := ascii "/bin/c") (debugSyms := false) (strs := [[255]])
    (by rw [show demoInspBad.tools = [⟨4200, (), Inspector.new⟩] by rfl]; exact List.mem_singleton_self _)
    ⟨by rfl, [4151], by rfl, .cons (fromCStr_inv (by rfl)) .nil⟩ [255] (List.mem_singleton_self _) (by decide)

set_option maxRecDepth 20000 in
/-- The hypotheses of `C91_bad_source` are met. -/
example : ∃ (host' : InspHost Nat),
    inspStep exTools 64 bump (exWorld false) 1 demoInspBad (.inspect 4200 4160 4136 1) = .ok (0, host')
      ∧ HostRefused demoInspBad host' 1 (errCode .invalidInput) :=
  C91_bad_source bump_good (by decide) (demoInspBad_runs fun _ _ => True) (exWorld false) 1 4200 4160 4136 1 .invalidInput
    (by rfl)

end Blazesym.CApi
