import Verif.CApi.NormProgramLemmas
import Verif.CApi.ProgramProps
import Verif.Session.RoundTripProps

/-! Property theorems C90 (C programs with normalizers). -/

set_option autoImplicit false

namespace Blazesym.CApi

open Blazesym.Error Blazesym.Normalize
open Blazesym.Spec.Normalize (Reachable mappingsAt envAt Orderly VdsoFound describe InVdsoGap Consistent Listing)

variable {M : Type} [DecidableEq M] {tools : Dwarf.Tools} {size : Nat} {alloc : Allocator}
  {ok : Builder → Normalizer M → World M → Spec.Normalize.Call → Prop} {host : NormHost M} {gs : List (Given UserOutput)}
  {os : List Block}

section
variable (ha : GoodAllocator alloc) (hz : 0 < size) (hrun : NormRuns tools size alloc ok host gs os)
include ha hz hrun

/-- **C90** (normalizers) Whatever a C program has done, with any number of normalizers and threads and any use of
its own memory: each of its normalizers is one that a Rust program can have that makes the calls this normalizer
was used for. -/
theorem C90_objects (o : Tool Builder (Normalizer M)) (ho : o ∈ host.tools) :
    Reachable (o.opts.build tools) (ok o.opts) o.state := (inv_of_normRuns ha hz hrun).tools o ho

/-- **C90** (results) Results that were handed out stay what they were until they are freed. -/
theorem C90_results (g : Given UserOutput) (hg : g ∈ gs) :
    (∃ (bs : List Block), bs.Perm g.blocks ∧ UserOutputAt host.store.mem g.ptr g.result bs)
      ∧ ∀ (b : Block), b ∈ g.blocks → b ∈ host.store.blocks :=
  ⟨(inv_of_normRuns ha hz hrun).results g hg, (inv_of_normRuns ha hz hrun).given_blocks hg⟩

/-- **C90** (memory) The memory in use is that of the normalizers and of the results that were not freed, and the
program's own; no two of them overlap. -/
theorem C90_memory : host.store.blocks.Perm (host.library size gs ++ os) ∧ host.store.Valid :=
  ⟨(inv_of_normRuns ha hz hrun).blocks, (inv_of_normRuns ha hz hrun).valid⟩

/-- **C90** (memory) If all normalizers and results have been freed, only the program's own memory is in use. -/
theorem C90_all_freed (ho : host.tools = []) (hg : gs = []) : host.store.blocks.Perm os := by
  have := (inv_of_normRuns ha hz hrun).blocks
  rw [Host.library, ho, hg] at this
  exact this

theorem normStep_args {w : World M} {thread pid : Nat} {o : Tool Builder (Normalizer M)} {c : NormCall} {opts : Opts}
    {xs : List Nat} (h : NormalizeArgs host.store.mem o.addr pid c opts xs) : ∃ (addrs cnt : Nat),
      userArray host.store.mem addrs 8 cnt = .ok xs ∧
      normStep tools size alloc w thread host c = normalizeIn tools alloc w host thread o.addr pid addrs cnt opts := by
  cases h with
  | default hx => exact ⟨_, _, hx, rfl⟩
  | opts hx hi =>
    refine ⟨_, _, hx, ?_⟩
    simp only [normStep, hi]
    rfl

/-- **C90** (requests) What a call for normalization does: the normalizer answers the request, and becomes what it
becomes by this request.  If it panics, the program is aborted; an error is reported by its code, with `NULL`; and
a result by a pointer to it.  If there is no memory for the result, the program is aborted, and also if a path in
it contains a NUL. -/
theorem C90_normalize (w : World M) (thread : Nat) {o : Tool Builder (Normalizer M)} (ho : o ∈ host.tools) {c : NormCall}
    {pid : Nat} {opts : Opts} {xs : List Nat} (h : NormalizeArgs host.store.mem o.addr pid c opts xs) {r : NResult}
    {state : Normalizer M} (hr : o.state.normalize (o.opts.build tools) w opts pid xs = (r, state)) (hfit : FitOutput r)
    {out : Except Fault (Nat × NormHost M)} (hout : normStep tools size alloc w thread host c = out) :
    (r = .err .panic → out = .error .abort) ∧
    (∀ (e : Err), e ≠ .panic → r = .err e → ∃ (host' : NormHost M) (code : Int), out = .ok (0, host') ∧ HasCode e code
      ∧ HostChanged host host' o state thread code ∧ host'.store = host.store) ∧
    ∀ (metas : List UserMeta) (outputs : List (Nat × Nat)) (result : UserOutput), r = .ok metas outputs →
      SameOutput metas outputs result →
      ((∃ (ptr : Nat) (host' : NormHost M), out = .ok (ptr, host') ∧ HostChanged host host' o state thread 0
          ∧ NormHandsOut host host' ptr result) ∨
        out = .error .outOfMemory ∨
        (out = .error .abort ∧ ∃ (x : OutMeta) (path : Bytes), x ∈ result.metas ∧ x.path? = some path ∧ 0 ∈ path)) ∧
      ((∃ (x : OutMeta) (path : Bytes), x ∈ result.metas ∧ x.path? = some path ∧ 0 ∈ path) →
        out = .error .abort ∨ out = .error .outOfMemory) := by
  have hinv := inv_of_normRuns ha hz hrun
  have hu : ∀ (y : Tool Builder (Normalizer M)), y ∈ host.tools → y.addr = o.addr → y = o :=
    fun y hy h => hinv.same_tool hz hy ho h
  obtain ⟨addrs, cnt, hx, hs⟩ := normStep_args (tools := tools) (w := w) (thread := thread) ha hz hrun h
  rw [hs] at hout
  obtain ⟨c1, c2, c3⟩ := normalize_cases (tools := tools) (thread := thread) ha hinv.valid (hinv.tool_eq hz ho) hx hr
  subst hout
  refine ⟨c1, ?_, ?_⟩
  · intro e he hre
    exact ⟨_, _, c2 e he hre, hasCode e he, hostChanged_next hu ho _ _ _ _, rfl⟩
  · intro metas outputs result hre hsame
    have hres := sameOutput_eq hsame
    have hf := hfit metas outputs result hre hsame
    subst hres
    obtain ⟨d1, d2⟩ := c3 metas outputs hre
    constructor
    · cases hcv : convertOutput alloc host.store ⟨outputs, metas.map outMeta⟩ with
      | ok x =>
        obtain ⟨p, store⟩ := x
        obtain ⟨k1, k2, bs, k3, k4⟩ := d2 p store hcv hf
        exact .inl ⟨p, _, k1, hostChanged_next hu ho _ _ _ _, k2, ⟨bs, k4, k3.blocks⟩, k3.same⟩
      | error f =>
        right
        rw [d1 f hcv]
        by_cases hn : ∃ (x : OutMeta) (path : Bytes), x ∈ (⟨outputs, metas.map outMeta⟩ : UserOutput).metas
            ∧ x.path? = some path ∧ 0 ∈ path
        · obtain ⟨x, path, h1, h2, h3⟩ := hn
          rcases C74_nul_wrong alloc ha host.store _ hf x h1 path h2 h3 with h | h
          · rw [hcv] at h; cases h; exact .inr ⟨rfl, x, path, h1, h2, h3⟩
          · rw [hcv] at h; cases h; exact .inl rfl
        · have := C74_output_total_partial alloc ha host.store _ hf (fun x h1 path h2 h3 => hn ⟨x, path, h1, h2, h3⟩)
          rcases this with ⟨p, s', h⟩ | h
          · rw [hcv] at h; cases h
          · rw [hcv] at h; cases h; exact .inl rfl
    · rintro ⟨x, path, h1, h2, h3⟩
      rcases C74_nul_wrong alloc ha host.store _ hf x h1 path h2 h3 with h | h
      · exact .inl (d1 _ h)
      · exact .inr (d1 _ h)

/-- **C90** (requests) Options that cannot be read are reported by their error; nothing else happens. -/
theorem C90_bad_request (w : World M) (thread norm pid addrs cnt opts : Nat) (e : ErrorKind)
    (h : inputAs host.store.mem opts .normalizeOpts normalizeOpts = .ok (.error e)) :
    ∃ (host' : NormHost M), normStep tools size alloc w thread host (.normalizeOpts norm pid addrs cnt opts) = .ok (0, host')
      ∧ HostRefused host host' thread (errCode e) := by
  refine ⟨host.report thread (errCode e), ?_, rfl, rfl, hostError_set _ _ _ _ rfl⟩
  simp only [normStep, h]
  rfl

/-- **C90** (creation) Creating a normalizer: with the default settings if there are no options, and otherwise as
they say.  If there is no memory the program is aborted. -/
theorem C90_create (w : World M) (thread : Nat) (c : NormCall) (b : Builder) (h : NormNewArgs host.store.mem c b) :
    (alloc host.store size 8 = none → normStep tools size alloc w thread host c = .error .outOfMemory) ∧
    ∀ (addr : Nat), alloc host.store size 8 = some addr → ∃ (host' : NormHost M),
      normStep tools size alloc w thread host c = .ok (addr, host')
      ∧ HostCreated size host host' addr b Normalizer.new thread := by
  have key : normStep tools size alloc w thread host c = host.create size alloc thread b Normalizer.new := by
    cases h with
    | default => rfl
    | opts h =>
      simp only [normStep, h]
      rfl
  rw [key]
  exact (inv_of_normRuns ha hz hrun).create_spec ha hz thread b _

/-- **C90** (creation) Options that cannot be read are reported, and nothing else happens. -/
theorem C90_bad_options (w : World M) (thread opts : Nat) (e : ErrorKind)
    (h : inputAs host.store.mem opts .normalizerOpts normalizerOpts = .ok (.error e)) :
    ∃ (host' : NormHost M), normStep tools size alloc w thread host (.newOpts opts) = .ok (0, host')
      ∧ HostRefused host host' thread (errCode e) := by
  refine ⟨host.report thread (errCode e), ?_, rfl, rfl, hostError_set _ _ _ _ rfl⟩
  simp only [normStep, h]
  rfl

/-- **C90** (freeing) A normalizer can be freed at any time: it is gone, with its memory, and nothing else is
changed, not even the last error. -/
theorem C90_free (w : World M) (thread : Nat) :
    normStep tools size alloc w thread host (.free 0) = .ok (0, host) ∧
    ∀ (o : Tool Builder (Normalizer M)), o ∈ host.tools → ∃ (host' : NormHost M),
      normStep tools size alloc w thread host (.free o.addr) = .ok (0, host') ∧ HostDestroyed size host host' o.addr := by
  refine ⟨rfl, fun o ho => ?_⟩
  obtain ⟨host', k1, k2, _⟩ := (inv_of_normRuns ha hz hrun).destroy_spec hz ho
  exact ⟨host', k1, k2⟩

/-- **C90** (freeing) Results can be freed at any time, also when the normalizer they are from is gone. -/
theorem C90_free_results (w : World M) (thread : Nat) :
    normStep tools size alloc w thread host (.outputFree 0) = .ok (0, host) ∧
    ∀ (g : Given UserOutput), g ∈ gs → ∃ (host' : NormHost M),
      normStep tools size alloc w thread host (.outputFree g.ptr) = .ok (0, host') ∧ HostReleased host host' g := by
  refine ⟨rfl, fun g hg => ?_⟩
  obtain ⟨store, k1, _, k3⟩ := (inv_of_normRuns ha hz hrun).release outputThere_stable outputFree_spec (fun _ => rfl)
    (.inr ⟨g, hg, rfl⟩) rfl
  refine ⟨_, ?_, k3 g hg rfl⟩
  simp only [normStep, k1, bind, Except.bind]
  rfl

end

/-- What a C program is told about addresses: for each of them, the file with the offset in it, or whatever else
is documented. -/
def Describes (env : Normalize.Env) (es : List Maps.Entry) (xs : List Nat) (out : UserOutput) : Prop :=
  List.Forall₂ (fun a (o : Nat × Nat) => ∃ (m : UserMeta) (x : OutMeta), out.metas[o.2]? = some x ∧ SameMeta m x
    ∧ describe env es a = .ok (o.1, m)) xs out.outputs

theorem describes_of {env : Normalize.Env} {es : List Maps.Entry} {xs : List Nat} {metas : List UserMeta}
    {outs : List (Nat × Nat)}
    (h : List.Forall₂ (fun a (o : Nat × Nat) => ∃ m, metas[o.2]? = some m ∧ describe env es a = .ok (o.1, m)) xs outs) :
    Describes env es xs ⟨outs, metas.map outMeta⟩ := by
  refine List.Forall₂.imp ?_ h
  rintro a o ⟨m, h1, h2⟩
  refine ⟨m, outMeta m, ?_, sameMeta m, h2⟩
  rw [List.getElem?_map, h1]
  rfl

/-- **C90** (what is reported; partial: see C75, orderly histories, no addresses between the symbols of a vDSO, and
paths without NUL) Whatever the program did before: what it is told about addresses of a process is for each of them
what is documented, given the mappings of the process and what is in the files that are there now.  The result is in
memory that was not in use; only if there is no memory for it, the program is aborted. -/
theorem C90_output_partial (ha : GoodAllocator alloc) (hz : 0 < size) {contents : M → Except Err (Except Err Bytes)}
    {vdso : Dwarf.ElfParser}
    (hrun : NormRuns tools size alloc (fun b => Orderly contents vdso (b.build tools)) host gs os)
    (w : World M) (thread : Nat) {o : Tool Builder (Normalizer M)} (ho : o ∈ host.tools) {c : NormCall}
    {pid : Nat} {opts : Opts} {xs : List Nat} (h : NormalizeArgs host.store.mem o.addr pid c opts xs)
    (hw : Orderly contents vdso (o.opts.build tools) o.state w ⟨opts, pid, xs⟩)
    (hv : VdsoFound (o.opts.build tools) w pid (o.state.vmas pid)) {src : Normalize.Source}
    (hsrc : mappingsAt (o.opts.build tools) w pid (o.state.vmas pid) = .ok src)
    (es : List Maps.Entry) (hl : Listing es) (hp : Provides src es xs)
    (hsort : opts.sortedAddrs = true → xs.Pairwise (· ≤ ·))
    (hok : ∀ a ∈ xs, ∃ v m, describe (envAt (o.opts.build tools) w opts pid) es a = .ok (v, m))
    (hgap : ∀ a ∈ xs, ¬ InVdsoGap (envAt (o.opts.build tools) w opts pid) es a)
    (hcons : Consistent (envAt (o.opts.build tools) w opts pid) es xs)
    (hfit : FitOutput (o.state.normalize (o.opts.build tools) w opts pid xs).1)
    (hnul : ∀ (metas : List UserMeta) (outputs : List (Nat × Nat)) (result : UserOutput),
      (o.state.normalize (o.opts.build tools) w opts pid xs).1 = .ok metas outputs → SameOutput metas outputs result →
      ∀ (x : OutMeta), x ∈ result.metas → ∀ (path : Bytes), x.path? = some path → 0 ∉ path) :
    (∃ (ptr : Nat) (host' : NormHost M) (out : UserOutput),
      normStep tools size alloc w thread host c = .ok (ptr, host')
        ∧ Describes (envAt (o.opts.build tools) w opts pid) es xs out ∧ NormHandsOut host host' ptr out
        ∧ HostError host host' thread 0) ∨
    normStep tools size alloc w thread host c = .error .outOfMemory := by
  obtain ⟨metas, outs, h1, h2⟩ := C75_normalize_partial o.opts tools (C90_objects ha hz hrun o ho) w ⟨opts, pid, xs⟩ hw hv hsrc
    es hl hp hsort hok hgap hcons
  have hd := describes_of h2
  obtain ⟨_, _, c3⟩ := C90_normalize ha hz hrun w thread ho h (r := .ok metas outs)
    (state := (o.state.normalize (o.opts.build tools) w opts pid xs).2) (by rw [← h1]) (by rw [← h1]; exact hfit) rfl
  rcases (c3 metas outs _ rfl (sameOutput metas outs)).1 with ⟨ptr, host', k1, k2, k3⟩ | k | ⟨_, x, path, k1, k2, k3⟩
  · exact .inl ⟨ptr, host', _, k1, hd, k3, k2.errs⟩
  · exact .inr k
  · exact absurd k3 (hnul metas outs _ h1 (sameOutput metas outs) x k1 path k2)

/-! ### Examples -/

open Blazesym.RoundTrip (exAddrs exReported exEnv exDescribe exNoGap exConsistent)
open Blazesym.Symbolize (exEntries exEntries_listing exSettings)

/-- The memory of a program: a `blaze_normalizer_opts` that asks for build IDs and for keeping them, five
addresses, and a `blaze_normalize_opts` that says that they are sorted. -/
def demoNormMemory : Store :=
  ⟨fun x => (leBytes 8 32 ++ [0, 0, 1, 1] ++ leBytes 4 0 ++ leBytes 8 0 ++ leBytes 8 0
      ++ exAddrs.flatMap (leBytes 8) ++ leBytes 8 32 ++ [1] ++ List.replicate 23 0)[x - 4096]?, [⟨4096, 104, 8⟩]⟩

theorem demoNormMemory_valid : demoNormMemory.Valid := by
  refine ⟨fun b hb => ?_, List.pairwise_singleton _ _⟩
  rw [show demoNormMemory.blocks = [⟨4096, 104, 8⟩] from rfl, List.mem_singleton] at hb
  subst hb; decide

/-- The program before it has done anything. -/
def demoNormBegin : NormHost Nat := ⟨demoNormMemory, LastErr.init, []⟩

/-- The program after a call. -/
def demoNormCall (w : World Nat) (host : NormHost Nat) (c : NormCall) : NormHost Nat :=
  match normStep exSettings.tools 64 bump w 1 host c with
  | .ok (_, host') => host'
  | .error _ => host

/-- The program when it has created a normalizer. -/
def demoNormCreated : NormHost Nat := demoNormCall (exNorm 0 1) demoNormBegin (.newOpts 4096)

set_option maxRecDepth 20000 in
theorem demoNormCreated_step :
    normStep exSettings.tools 64 bump (exNorm 0 1) 1 demoNormBegin (.newOpts 4096) = .ok (4200, demoNormCreated) := by rfl

set_option maxRecDepth 20000 in
theorem demoNormCreated_tools : demoNormCreated.tools = [⟨4200, ⟨false, false, true, true⟩, Normalizer.new⟩] := by rfl

theorem demoNormCreated_runs (ok : Builder → Normalizer Nat → World Nat → Spec.Normalize.Call → Prop) :
    NormRuns exSettings.tools 64 bump ok demoNormCreated [] [⟨4096, 104, 8⟩] :=
  .call demoNormBegin _ [] _ _ (exNorm 0 1) 1 4200 (.newOpts 4096) (.start demoNormMemory demoNormMemory_valid)
    (by refine ⟨?_, ?_⟩; · intro _ h; cases h
        · intro _ _ _ _ h; cases h) demoNormCreated_step rfl

set_option maxRecDepth 20000 in
theorem demoNorm_args : NormalizeArgs demoNormCreated.store.mem 4200 7 (.normalizeOpts 4200 7 4128 5 4168) ⟨true, false, false⟩ exAddrs :=
  .opts (by rfl) (by rfl)

/-- What the normalizer says. -/
def demoNormMetas : List UserMeta := exReported.map (·.2)

set_option maxRecDepth 20000 in
theorem demoNorm_result : ((Normalizer.new : Normalizer Nat).normalize (exCfg true) (exNorm 0 1) ⟨true, false, false⟩ 7 exAddrs).1
    = .ok demoNormMetas [(1, 0), (8, 1), (0x500008, 2), (40, 3), (8, 4)] := by
  decide +kernel

theorem demoNorm_fits : FitOutput
    ((Normalizer.new : Normalizer Nat).normalize (exCfg true) (exNorm 0 1) ⟨true, false, false⟩ 7 exAddrs).1 := by
  rw [demoNorm_result]
  intro metas outputs out h hs
  have := sameOutput_eq hs
  subst this
  cases h
  refine ⟨by decide, by decide, fun x hx => ?_, by decide⟩
  simp only [demoNormMetas, exReported, List.map_cons, List.map_nil, outMeta, List.mem_cons, List.not_mem_nil, or_false] at hx
  rcases hx with rfl | rfl | rfl | rfl | rfl
  · trivial
  · trivial
  · trivial
  · trivial
  · exact ⟨⟨by decide, by decide, fun info h => by simp at h, fun fn h => by simp at h⟩, by decide +kernel⟩

/-- The hypotheses of `C90_output_partial` are met, by a program that normalizes five addresses of a process. -/
example : (∃ (ptr : Nat) (host' : NormHost Nat) (out : UserOutput),
      normStep exSettings.tools 64 bump (exNorm 0 1) 1 demoNormCreated (.normalizeOpts 4200 7 4128 5 4168) = .ok (ptr, host')
        ∧ Describes (exEnv false) exEntries exAddrs out ∧ NormHandsOut demoNormCreated host' ptr out
        ∧ HostError demoNormCreated host' 1 0) ∨
    normStep exSettings.tools 64 bump (exNorm 0 1) 1 demoNormCreated (.normalizeOpts 4200 7 4128 5 4168) = .error .outOfMemory :=
  C90_output_partial bump_good (by decide) (contents := (exNorm 0 1).disk.contents) (vdso := exVdso)
    (demoNormCreated_runs _) (exNorm 0 1) 1 (o := ⟨4200, ⟨false, false, true, true⟩, Normalizer.new⟩)
    (by rw [demoNormCreated_tools]; exact List.mem_singleton_self _) demoNorm_args
    (exNorm_orderly 0 1 true _ _ _).1 ((exNorm_orderly 0 1 true Normalizer.new ⟨true, false, false⟩ []).2 _)
    (exNorm_maps 0 1 true _) exEntries exEntries_listing ⟨by decide, .inl rfl⟩ (by intro _; decide +kernel)
    (fun a ha => by
      obtain ⟨o, _, h⟩ := exDescribe a ha
      exact ⟨o.1, o.2, h⟩)
    exNoGap exConsistent demoNorm_fits
    (by
      intro metas outputs result h hs x hx path hp
      have h' : NResult.ok metas outputs = _ := h.symm.trans demoNorm_result
      have := sameOutput_eq hs
      subst this
      cases h'
      simp only [demoNormMetas, exReported, List.map_cons, List.map_nil, outMeta, List.mem_cons, List.not_mem_nil,
        or_false] at hx
      rcases hx with rfl | rfl | rfl | rfl | rfl <;> first | (cases hp; decide +kernel) | (cases hp; done))

set_option maxRecDepth 20000 in
/-- All of it: the result is handed out, and when it and the normalizer are freed nothing but the program's own
memory is in use. -/
example :
    (normStep exSettings.tools 64 bump (exNorm 0 1) 1 demoNormCreated (.normalizeOpts 4200 7 4128 5 4168)).toOption.map (·.1) ≠ none ∧
    (normStep exSettings.tools 64 bump (exNorm 0 1) 1 demoNormCreated (.normalizeOpts 4200 7 4128 5 4168)).toOption.map
      (fun r => (demoNormCall (exNorm 0 1) (demoNormCall (exNorm 0 1) r.2 (.free 4200)) (.outputFree r.1)).store.blocks) =
        some [⟨4096, 104, 8⟩] := by
  constructor <;> decide +kernel

set_option maxRecDepth 20000 in
/-- A process that is gone: the error is reported by its code, to the thread that made the call, and to no other one. -/
example : (normStep exSettings.tools 64 bump exGone 2 demoNormCreated (.normalizeOpts 4200 7 4128 5 4168)).toOption.map
    (fun r => (r.1, r.2.errs 1, r.2.errs 2)) = some (0, 0, errCode .notFound) := by
  decide +kernel

end Blazesym.CApi
