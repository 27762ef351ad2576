import Verif.CApi.Host
import Verif.Session.Normalizer

/-!
# Model of programs that use normalizers through the C interface (`capi/src/normalize.rs`)

Here the normalizer is that of `Verif.Session.Normalizer`, with its caches.  A call takes place in a world that does
not change meanwhile, and calls do not overlap (`blaze_normalizer` must not be used by several threads at once).
-/

set_option autoImplicit false

namespace Blazesym.CApi

open Blazesym.Error Blazesym.Normalize

variable {M : Type} [DecidableEq M]

/-- `capi/src/normalize.rs:218-232`: the options of the normalizer that is built. -/
def builderOf (o : NormalizerOpts) : Builder := ⟨o.procmapQuery, o.cacheVmas, o.buildIds, o.cacheBuildIds⟩

/-- `capi/src/normalize.rs:155-171` (`From<blaze_normalize_opts>`): the options of a request. -/
def requestOpts (o : NormalizeOpts) : Opts := ⟨o.sortedAddrs, o.mapFiles, o.apkToElf⟩

/-- `src/normalize/mod.rs:73-76`: `NormalizeOpts::default()`. -/
def defaultRequest : Opts := ⟨false, false, false⟩

/-- The metadata as it is converted (`Verif.CApi.Output` has a type of its own for it). -/
def outMeta : UserMeta → OutMeta
  | .apk path => .apk path
  | .elf path id => .elf path id
  | .sym sym => .sym sym
  | .unknown reason => .unknown reason

/-- What the normalizer comes back with. -/
def normalized : NResult → Except Err UserOutput
  | .ok metas outputs => .ok ⟨outputs, metas.map outMeta⟩
  | .err e => .error e

/-- The functions for normalization; pointers are addresses. -/
inductive NormCall where
  | new
  | newOpts (opts : Nat)
  | free (norm : Nat)
  | normalize (norm pid addrs cnt : Nat)
  | normalizeOpts (norm pid addrs cnt opts : Nat)
  | outputFree (out : Nat)
  deriving DecidableEq, Repr

/-- A program with normalizers. -/
abbrev NormHost (M : Type) := Host Builder (Normalizer M)

/-- `capi/src/normalize.rs:731-758` (`blaze_normalize_user_addrs_impl`). -/
def normalizeIn (tools : Dwarf.Tools) (alloc : Allocator) (w : World M) (host : NormHost M) (thread norm pid addrs cnt : Nat)
    (opts : Opts) : Except Fault (Nat × NormHost M) := do
  let o ← host.tool norm
  let xs ← userArray host.store.mem addrs 8 cnt
  let (r, state) := o.state.normalize (o.opts.build tools) w opts pid xs
  match ← outcome (normalized r) with
  | .ok out =>
    let (p, store) ← convertOutput alloc host.store out
    return (p, { (host.update norm state).report thread ok with store })
  | .error e => return (0, (host.update norm state).report thread (errCode e))

/-- A call by a thread: what it returns (0 for functions that return nothing) and what becomes of the program.
`size` is that of a normalizer. -/
def normStep (tools : Dwarf.Tools) (size : Nat) (alloc : Allocator) (w : World M) (thread : Nat) (host : NormHost M) :
    NormCall → Except Fault (Nat × NormHost M)
  -- `capi/src/normalize.rs:188-193`
  | .new => host.create size alloc thread Builder.default Normalizer.new
  -- `capi/src/normalize.rs:209-236`
  | .newOpts opts => do
    match ← inputAs host.store.mem opts .normalizerOpts normalizerOpts with
    | .error e => return (0, host.report thread (errCode e))
    | .ok o => host.create size alloc thread (builderOf o) Normalizer.new
  | .free norm => host.destroy size norm
  -- `capi/src/normalize.rs:779-788`
  | .normalize norm pid addrs cnt => normalizeIn tools alloc w host thread norm pid addrs cnt defaultRequest
  -- `capi/src/normalize.rs:811-826`
  | .normalizeOpts norm pid addrs cnt opts => do
    match ← inputAs host.store.mem opts .normalizeOpts normalizeOpts with
    | .error e => return (0, host.report thread (errCode e))
    | .ok o => normalizeIn tools alloc w host thread norm pid addrs cnt (requestOpts o)
  -- `capi/src/normalize.rs:838-865`
  | .outputFree out => do
    let store ← userOutputFree host.store out
    return (0, { host with store })

end Blazesym.CApi
