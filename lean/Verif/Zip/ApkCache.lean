import Verif.Zip.Archive
import Verif.Cache.InsertMap

/-!
# Model of the cache for the resolvers of an archive's members (`src/symbolize/symbolizer.rs`)

For an archive that stays the same.
-/

set_option autoImplicit false

namespace Blazesym.Zip
open Blazesym.Util Blazesym.Cache

/-- The `InsertMap<Range<u64>, Box<dyn Resolve>>` of an archive. -/
abbrev MemberCache (R : Type) := InsertMap (Nat × Nat) R

/-- `src/symbolize/symbolizer.rs:826-882` (`create_apk_resolver`) with its cache.  `dispatch` is what
makes a resolver of a member's path and data, which depends on the request's `debug_syms`
(`default_apk_dispatcher`, `:265-283`). -/
def cachedApkResolver {R : Type} (contents : Bytes) (dispatch : Bool → Nat → Bytes → Bytes → Except Err R)
    (toVirt : R → Nat → Except Err (Option Nat)) (cache : MemberCache R) (fileOff : Nat) (debugSyms : Bool) :
    Except Err (Option (R × Nat)) × MemberCache R :=
  let mmap := Mmap.map contents
  match entries mmap.deref with
  | .error e => (.error e, cache)
  | .ok items =>
    match findMember fileOff items with
    | .error e => (.error e, cache)
    | .ok none => (.ok none, cache)
    | .ok (some entry) =>
      let make (_ : Unit) : Except Err R :=
        match memberData mmap entry with
        | .error e => .error e
        | .ok data => dispatch debugSyms entry.dataOffset entry.path data
      match cache.getOrTryInsert (entry.dataOffset, entry.dataOffset + entry.data.length) make with
      | (.error e, cache) => (.error e, cache)
      | (.ok resolver, cache) =>
        match toVirt resolver (fileOff - entry.dataOffset) with
        | .error e => (.error e, cache)
        | .ok (some addr) => (.ok (some (resolver, addr)), cache)
        | .ok none => (.ok none, cache)

/-- Requests, one after the other, starting with an empty cache: the last one's answer is what
`cachedApkResolver` gives with the cache the others leave. -/
def cacheAfter {R : Type} (contents : Bytes) (dispatch : Bool → Nat → Bytes → Bytes → Except Err R)
    (toVirt : R → Nat → Except Err (Option Nat)) : List (Nat × Bool) → MemberCache R → MemberCache R
  | [], cache => cache
  | (off, debugSyms) :: rest, cache =>
    cacheAfter contents dispatch toVirt rest (cachedApkResolver contents dispatch toVirt cache off debugSyms).2

end Blazesym.Zip
