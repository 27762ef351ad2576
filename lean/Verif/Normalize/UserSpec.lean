import Verif.Normalize.WalkSpec
import Verif.Normalize.User
import Verif.Util.PathSpec

/-!
Specification of user address normalization: what is documented to be reported for one
address, on its own, given the mappings of the process.

The types `UserMeta`, `Reason` (output of the API), `Env` (contents of other files) and
`Entry` (a mapping) are those of the model.
-/

set_option autoImplicit false

namespace Blazesym.Spec.Normalize
export Blazesym.Spec (HasExtension)
open Blazesym.Maps Blazesym.Normalize Blazesym.Symbolize

/-- The build ID to report for a file: as the kernel says, or else as found in the file; none
if that cannot be read. -/
def buildIdOf (env : Env) (e : Entry) (path : Bytes) : Except Err (Option Bytes) :=
  match e.buildId, env.readBuildId path with
  | some b, _ => .ok (some b)
  | none, .ok b => .ok b
  | none, .error .panic => .error .panic
  | none, .error _ => .ok none

open Classical in
/-- What is documented for an address in a mapping: the file offset together with the file,
or the address itself together with a reason. -/
noncomputable def describeIn (env : Env) (e : Entry) (addr : Nat) : Except Err (Nat × UserMeta) :=
  let off := addr - e.start + e.offset
  if off ≥ 2 ^ 64 then .error .panic
  else
    match e.pathName with
    | none => .ok (addr, .unknown .missingComponent)
    | some (.component c) =>
      if c ≠ ascii "[vdso]" then .ok (addr, .unknown .unsupported)
      else do
        let parser ← env.vdso e.start e.stop
        match ← parser.fileOffsetToVirtOffset off with
        | none => .ok (addr, .unknown .unmapped)
        | some virt =>
          match ← parser.symbolize virt with
          | .sym sym => .ok (off, .sym sym)
          | .unknown reason => .ok (addr, .unknown reason)
    | some (.path p) =>
      let file := if env.mapFiles then p.mapsFile else p.symbolicPath
      if HasExtension p.symbolicPath (ascii "apk") ∨ HasExtension p.symbolicPath (ascii "zip") then
        if env.apkToElf then do
          match ← env.translateApk off file with
          | none => .ok (addr, .unknown .unmapped)
          | some (elfOff, elfPath, bid) =>
            -- the kernel never reports a build ID for an archive
            if e.buildId = none then .ok (elfOff, .elf elfPath bid) else .error .panic
        else .ok (off, .apk file)
      else do
        let bid ← buildIdOf env e file
        .ok (off, .elf file bid)

/-- What is documented for an address of a process with the mappings `es`. -/
noncomputable def describe (env : Env) (es : List Entry) (addr : Nat) : Except Err (Nat × UserMeta) :=
  match mappingOf es addr with
  | none => .ok (addr, .unknown .unmapped)
  | some e => describeIn env e addr

/-- The file a record is about. -/
def fileOf : UserMeta → Option Bytes
  | .apk path => some path
  | .elf path _ => some path
  | .sym _ => none
  | .unknown _ => none

/-- The address lies in the vDSO, at virtual offset `virt`, but in none of its symbols. -/
def VdsoGap (env : Env) (e : Entry) (addr virt : Nat) (reason : Reason) : Prop :=
  e.pathName = some (.component (ascii "[vdso]")) ∧ ∃ parser,
    env.vdso e.start e.stop = .ok parser ∧ parser.fileOffsetToVirtOffset (addr - e.start + e.offset) = .ok (some virt) ∧
    parser.symbolize virt = .ok (.unknown reason)

/-- See `VdsoGap`. -/
def InVdsoGap (env : Env) (es : List Entry) (addr : Nat) : Prop :=
  ∃ e virt reason, mappingOf es addr = some e ∧ VdsoGap env e addr virt reason

/-- The same file always goes with the same record. -/
def Consistent (env : Env) (es : List Entry) (addrs : List Nat) : Prop :=
  ∀ a ∈ addrs, ∀ b ∈ addrs, ∀ v w m n, describe env es a = .ok (v, m) → describe env es b = .ok (w, n) →
    fileOf m ≠ none → fileOf m = fileOf n → m = n

/-- What the PROCMAP_QUERY ioctl answers: the first readable mapping that does not end before
the address. -/
def kernelAnswer (vs : List RawVma) (addr : Nat) : Option RawVma :=
  vs.find? (fun v => decide (v.flags % 2 = 1) && decide (addr < v.stop))

end Blazesym.Spec.Normalize
