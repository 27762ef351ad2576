import Verif.Session.Normalizer
import Verif.Normalize.UserSpec

/-!
# Specification of the normalizer: answers without any cache

`envAt` is what normalization has to work with if everything is read anew.
-/

set_option autoImplicit false

namespace Blazesym.Spec.Normalize
open Blazesym.Util Blazesym.Maps Blazesym.Normalize
open Blazesym.Symbolize hiding World Settings Source Env
open Blazesym.Dwarf (ElfParser)

variable {M : Type}

/-- The contents of the file that is at a path, or why they cannot be read. -/
def contentsAt (w : World M) (path : Bytes) : Except Err Bytes :=
  match w.disk.stat path with
  | .error e => .error e
  | .ok m =>
    match w.disk.contents m with
    | .error e => .error e
    | .ok file => file

/-- The build ID of the file that is at a path. -/
def buildIdAt (cfg : Settings) (w : World M) (path : Bytes) : Except Err (Option Bytes) :=
  if cfg.buildIds then
    match contentsAt w path with
    | .error e => .error e
    | .ok data => Elf.readBuildId cfg.tools.codec (.mem 4096 data)
  else .ok none

/-- The member of the archive that is at a path, for an offset in it. -/
def memberAt (cfg : Settings) (w : World M) (off : Nat) (path : Bytes) :
    Except Err (Option (Nat × Bytes × Option Bytes)) :=
  match contentsAt w path with
  | .error e => .error e
  | .ok data =>
    Zip.translateApkToElf data cfg.buildIds
      (fun place data => Elf.readBuildId cfg.tools.codec (.mem (4096 + place) data)) path off

/-- What normalization has to work with, without any cache. -/
def envAt (cfg : Settings) (w : World M) (opts : Opts) (pid : Nat) : Env where
  mapFiles := opts.mapFiles
  apkToElf := opts.apkToElf
  readBuildId := buildIdAt cfg w
  translateApk := memberAt cfg w
  vdso := fun start stop =>
    match createVdsoParser w.toSession pid start stop with
    | .error e => .error e
    | .ok parser => .ok (asVdso cfg.tools parser)

/-- Where the mappings of a process come from: the kernel, unless they are kept. -/
def mappingsAt (cfg : Settings) (w : World M) (pid : Nat) (kept : Option (List Entry)) : Except Err Normalize.Source :=
  (entriesFor (setupOf cfg w pid) (w.budget pid) kept).map Prod.fst

/-- A mapping that can come from there. -/
def Offers : Normalize.Source → Entry → Prop
  | .list items, e => .ok e ∈ items
  | .query q, e => ∃ addr, q addr = .ok (some e)

/-- The vDSO of a process, if it is found, is a certain one. -/
def VdsoIs (vdso : ElfParser) (cfg : Settings) (w : World M) (pid : Nat) (kept : Option (List Entry)) : Prop :=
  ∀ src e, mappingsAt cfg w pid kept = .ok src → Offers src e →
    e.pathName = some (.component (ascii "[vdso]")) →
    ∀ p, createVdsoParser w.toSession pid e.start e.stop = .ok p → p = vdso

/-- It is found. -/
def VdsoFound (cfg : Settings) (w : World M) (pid : Nat) (kept : Option (List Entry)) : Prop :=
  ∀ src e, mappingsAt cfg w pid kept = .ok src → Offers src e →
    e.pathName = some (.component (ascii "[vdso]")) →
    ∃ p, createVdsoParser w.toSession pid e.start e.stop = .ok p

/-- A call of `normalize_user_addrs_opts`. -/
structure Call where
  opts : Opts
  pid : Nat
  addrs : List Nat

/-- What the normalizers a program can have are: a new one, and what it becomes by calls that satisfy a
condition. Every call is made in a world of its own. -/
inductive Reachable [DecidableEq M] (cfg : Settings) (ok : Normalizer M → World M → Call → Prop) :
    Normalizer M → Prop where
  | new : Reachable cfg ok Normalizer.new
  | call (s : Normalizer M) (w : World M) (c : Call) :
      Reachable cfg ok s → ok s w c → Reachable cfg ok (s.normalize cfg w c.opts c.pid c.addrs).2

/-- A version of a file has the same contents in all worlds (another file at the same path, or one that
was written to, is another version), and there is only one vDSO. -/
def Orderly (contents : M → Except Err (Except Err Bytes)) (vdso : ElfParser) (cfg : Settings)
    (s : Normalizer M) (w : World M) (c : Call) : Prop :=
  w.disk.contents = contents ∧ VdsoIs vdso cfg w c.pid (s.vmas c.pid)

/-- What a normalizer becomes by further calls that satisfy a condition. -/
inductive Later [DecidableEq M] (cfg : Settings) (ok : Normalizer M → World M → Call → Prop) (s : Normalizer M) :
    Normalizer M → Prop where
  | now : Later cfg ok s s
  | call (s' : Normalizer M) (w : World M) (c : Call) :
      Later cfg ok s s' → ok s' w c → Later cfg ok s (s'.normalize cfg w c.opts c.pid c.addrs).2

/-- The mappings a process has, as the settings say they are to be read: all of them at once. -/
def allMappings (cfg : Settings) (w : World M) (pid : Nat) : Except Err (List Entry) :=
  match w.procMaps pid with
  | .error e => .error e
  | .ok text =>
    if cfg.useProcmapQuery then enumerate (queryProcmap (w.procmap pid) pid cfg.buildIds) (w.budget pid) 0
    else collect (parseFiltered text pid)

end Blazesym.Spec.Normalize
