import Verif.CApi.HostSpec
import Verif.CApi.NormProgram
import Verif.CApi.OutputSpec
import Verif.Session.NormalizerSpec

/-! # What C programs with normalizers can rely on -/

set_option autoImplicit false

namespace Blazesym.CApi

open Blazesym.Normalize

variable {M : Type} [DecidableEq M]

/-- Reading the arguments of a function for normalization: the options and the addresses. -/
inductive NormalizeArgs (m : Mem) (norm pid : Nat) : NormCall → Opts → List Nat → Prop
  | default {addrs cnt : Nat} {xs : List Nat} (hx : userArray m addrs 8 cnt = .ok xs) :
      NormalizeArgs m norm pid (.normalize norm pid addrs cnt) ⟨false, false, false⟩ xs
  | opts {addrs cnt opts : Nat} {xs : List Nat} {sortedAddrs mapFiles apkToElf : Bool}
      (hx : userArray m addrs 8 cnt = .ok xs)
      (h : inputAs m opts .normalizeOpts normalizeOpts = .ok (.ok ⟨sortedAddrs, mapFiles, apkToElf⟩)) :
      NormalizeArgs m norm pid (.normalizeOpts norm pid addrs cnt opts) ⟨sortedAddrs, mapFiles, apkToElf⟩ xs

/-- Reading the arguments of a function that creates a normalizer. -/
inductive NormNewArgs (m : Mem) : NormCall → Builder → Prop
  | default : NormNewArgs m .new ⟨false, false, true, false⟩
  | opts {opts : Nat} {useProcmapQuery cacheVmas buildIds cacheBuildIds : Bool}
      (h : inputAs m opts .normalizerOpts normalizerOpts = .ok (.ok ⟨useProcmapQuery, cacheVmas, buildIds, cacheBuildIds⟩)) :
      NormNewArgs m (.newOpts opts) ⟨useProcmapQuery, cacheVmas, buildIds, cacheBuildIds⟩

/-- The metadata of the Rust library and what a C program is given are about the same. -/
inductive SameMeta : UserMeta → OutMeta → Prop
  | apk (path : Bytes) : SameMeta (.apk path) (.apk path)
  | elf (path : Bytes) (id : Option Bytes) : SameMeta (.elf path id) (.elf path id)
  | sym (sym : Symbolize.Sym) : SameMeta (.sym sym) (.sym sym)
  | unknown (reason : Symbolize.Reason) : SameMeta (.unknown reason) (.unknown reason)

/-- The result of a normalization and what a C program is given. -/
def SameOutput (metas : List UserMeta) (outputs : List (Nat × Nat)) (out : UserOutput) : Prop :=
  out.outputs = outputs ∧ List.Forall₂ SameMeta metas out.metas

/-- The numbers of results are in range of their Rust types, and their sizes in range of what can be allocated. -/
def FitOutput (r : NResult) : Prop :=
  ∀ (metas : List UserMeta) (outputs : List (Nat × Nat)) (out : UserOutput), r = .ok metas outputs →
    SameOutput metas outputs out → out.Fits

/-- The rules for calls: only what was handed out is freed.  `ok` is a further condition on the requests that
reach a normalizer. -/
def NormAbides (tools : Dwarf.Tools) (ok : Builder → Normalizer M → World M → Spec.Normalize.Call → Prop)
    (host : NormHost M) (gs : List (Given UserOutput)) (w : World M) (c : NormCall) : Prop :=
  (∀ (out : Nat), c = .outputFree out → MayFree gs out) ∧
  ∀ (o : Tool Builder (Normalizer M)) (pid : Nat) (opts : Opts) (xs : List Nat), o ∈ host.tools →
    NormalizeArgs host.store.mem o.addr pid c opts xs →
    ok o.opts o.state w ⟨opts, pid, xs⟩ ∧ FitOutput (o.state.normalize (o.opts.build tools) w opts pid xs).1

/-- How calls change the account of results. -/
def NormAccounts (tools : Dwarf.Tools) (host host' : NormHost M) (w : World M) (c : NormCall) (ret : Nat)
    (gs gs' : List (Given UserOutput)) : Prop :=
  match c with
  | .normalize .. | .normalizeOpts .. => ∃ (out : UserOutput),
      (∀ (o : Tool Builder (Normalizer M)) (pid : Nat) (opts : Opts) (xs : List Nat) (metas : List UserMeta)
        (outputs : List (Nat × Nat)), o ∈ host.tools → NormalizeArgs host.store.mem o.addr pid c opts xs →
        (o.state.normalize (o.opts.build tools) w opts pid xs).1 = .ok metas outputs → SameOutput metas outputs out) ∧
      HandedOver host host' ret out gs gs'
  | .outputFree out => Released out gs gs'
  | _ => gs' = gs

/-- The programs there are. -/
abbrev NormRuns (tools : Dwarf.Tools) (size : Nat) (alloc : Allocator)
    (ok : Builder → Normalizer M → World M → Spec.Normalize.Call → Prop) :
    NormHost M → List (Given UserOutput) → List Block → Prop :=
  HostRuns size (normStep tools size alloc) (NormAbides tools ok) (NormAccounts tools)

/-- No condition. -/
def anyRequest : Builder → Normalizer M → World M → Spec.Normalize.Call → Prop := fun _ _ _ _ => True

/-- A result is handed out, in memory that was not in use. -/
structure NormHandsOut (host host' : NormHost M) (ptr : Nat) (out : UserOutput) : Prop where
  notNull : ptr ≠ 0
  there : ∃ (bs : List Block), UserOutputAt host'.store.mem ptr out bs
    ∧ host'.store.blocks.Perm (bs ++ host.store.blocks)
  kept : Unchanged host.store.mem host'.store.mem host.store.blocks

end Blazesym.CApi
