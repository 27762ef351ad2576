import Verif.Util.PathOpsProps
import Verif.Util.Format

/-! The search for separate debug files: `src/dwarf/debug_link.rs:31-187`
(`DebugFileIter`) and `src/dwarf/resolver.rs:97-136`. Paths are byte strings. -/

set_option autoImplicit false

namespace Blazesym.Dwarf
open Blazesym.Util

/-- `src/dwarf/debug_link.rs:46-57` (`DebugFileIter`), without the iteration state. -/
structure DebugSearch where
  fixedDirs : List Bytes
  canonicalLinker : Option Bytes
  linkee : Bytes
  buildId : Option Bytes

/-- `src/dwarf/debug_link.rs:31-44` (`State`). -/
inductive SearchState where
  | buildId
  | fixedDir (idx : Nat)
  | canonicalTarget (linkee : Bytes)
  | dynamicDirs (fixedDirIdx : Nat) (canonicalRelLinkee linkeeDir : Bytes)

/-- `format!("{byte:02x}")`. -/
def hexByte (b : UInt8) : Bytes := [digitChar (b.toNat / 16), digitChar (b.toNat % 16)]

/-- `src/elf/mod.rs:15-16` (`BUILD_ID_DEBUG_DIR`, `.` and `BUILD_ID_DEBUG_EXTENSION`). -/
def buildIdDebugDir : Bytes := ascii "/usr/lib/debug/.build-id"
def dotDebug : Bytes := ascii ".debug"

/-- `src/dwarf/debug_link.rs:104-120`: the path for a build ID. -/
def buildIdPath (first : UInt8) (rest : Bytes) : Bytes :=
  pathJoin (pathJoin buildIdDebugDir (hexByte first)) ((rest.flatMap hexByte) ++ dotDebug)

/-- One transition of the iterator. -/
inductive Step where
  /-- no more candidates (`None`) -/
  | done
  /-- `self.next()` in the next state -/
  | skip (s : SearchState)
  /-- `self.report_or_next(path)` in the next state -/
  | report (path : Bytes) (s : SearchState)

/-- `src/dwarf/debug_link.rs:93-186` (`next`), up to the recursive call or the call of
`report_or_next`. -/
def DebugSearch.step (d : DebugSearch) : SearchState → Step
  | .buildId =>
    match d.buildId with
    | none => .skip (.fixedDir 0)
    | some id =>
      if id.length < 8 then .skip (.fixedDir 0)
      else
        match id with
        | [] => .done
        | first :: rest => .report (buildIdPath first rest) (.fixedDir 0)
  | .fixedDir idx =>
    match d.fixedDirs[idx]? with
    | some dir => .report (pathJoin dir d.linkee) (.fixedDir (idx + 1))
    | none =>
      match d.canonicalLinker with
      | some linker => .skip (.canonicalTarget (setFileName linker d.linkee))
      | none => .done
  | .canonicalTarget linkee => .report linkee (.dynamicDirs 0 (middle linkee) (middle linkee))
  | .dynamicDirs idx rel dir =>
    match d.fixedDirs[idx]? with
    | some fixed =>
      let path := pathJoin (pathJoin fixed dir) d.linkee
      match parent dir with
      | some p =>
        if p ≠ [] then .report path (.dynamicDirs idx rel p)
        else .report path (.dynamicDirs (idx + 1) rel rel)
      | none => .report path (.dynamicDirs (idx + 1) rel rel)
    | none => .done

/-- An upper bound for the number of transitions. -/
def DebugSearch.rank (d : DebugSearch) : SearchState → Nat
  | .dynamicDirs idx rel dir => (d.fixedDirs.length - idx) * (rel.length + 1) + dir.length + 1
  | .canonicalTarget l => d.fixedDirs.length * ((middle l).length + 1) + (middle l).length + 2
  | .fixedDir idx => (d.fixedDirs.length - idx) +
      ((d.canonicalLinker.map fun l => d.fixedDirs.length *
        ((middle (setFileName l d.linkee)).length + 1) +
        (middle (setFileName l d.linkee)).length + 3).getD 0) + 1
  | .buildId => d.fixedDirs.length +
      ((d.canonicalLinker.map fun l => d.fixedDirs.length *
        ((middle (setFileName l d.linkee)).length + 1) +
        (middle (setFileName l d.linkee)).length + 3).getD 0) + 2

/-- Every transition lowers the bound. -/
theorem DebugSearch.rank_lt (d : DebugSearch) (s s' : SearchState) :
    (d.step s = .skip s' → d.rank s' < d.rank s) ∧
    (∀ p, d.step s = .report p s' → d.rank s' < d.rank s) := by
  cases s with
  | buildId =>
    simp only [step]
    refine ⟨fun h => ?_, fun p h => ?_⟩
    · split at h
      · cases h; simp only [rank]; omega
      · split at h
        · cases h; simp only [rank]; omega
        · split at h <;> cases h
    · split at h
      · cases h
      · split at h
        · cases h
        · split at h
          · cases h
          · cases h; simp only [rank]; omega
  | fixedDir idx =>
    simp only [step]
    refine ⟨fun h => ?_, fun p h => ?_⟩
    · split at h
      · cases h
      · split at h
        · cases h
          rename_i hl
          simp only [rank, hl, Option.map_some, Option.getD_some]
          omega
        · cases h
    · split at h
      · cases h
        rename_i hg
        obtain ⟨hlt, _⟩ := List.getElem?_eq_some_iff.mp hg
        simp only [rank]
        omega
      · split at h <;> cases h
  | canonicalTarget l =>
    simp only [step]
    refine ⟨fun h => (by cases h), fun p h => ?_⟩
    cases h
    simp only [rank, Nat.sub_zero]
    omega
  | dynamicDirs idx rel dir =>
    simp only [step]
    refine ⟨fun h => ?_, fun p h => ?_⟩
    · split at h
      · split at h
        · split at h <;> cases h
        · cases h
      · cases h
    · split at h
      · rename_i fixed hg
        obtain ⟨hlt, _⟩ := List.getElem?_eq_some_iff.mp hg
        have hmul : (d.fixedDirs.length - idx) * (rel.length + 1) =
            (d.fixedDirs.length - (idx + 1)) * (rel.length + 1) + (rel.length + 1) := by
          rw [← Nat.succ_mul]; congr 1; omega
        split at h
        · rename_i q hq
          have := parent_length hq
          split at h <;> cases h
          · simp only [rank]; omega
          · simp only [rank]; omega
        · cases h
          simp only [rank]; omega
      · cases h

/-- `Some(path.as_path()) != self.canonical_linker`, negated. -/
def DebugSearch.isLinker (d : DebugSearch) (path : Bytes) : Bool :=
  match d.canonicalLinker with
  | some l => pathEq path l
  | none => false

/-- `src/dwarf/debug_link.rs:76-186` (`next` with `report_or_next`): the next candidate and
the state after it. -/
def DebugSearch.next (d : DebugSearch) (s : SearchState) : Option (Bytes × SearchState) :=
  match h : d.step s with
  | .done => none
  | .skip s' => d.next s'
  | .report p s' => if d.isLinker p then d.next s' else some (p, s')
termination_by d.rank s
decreasing_by
  · exact (d.rank_lt s s').1 h
  · exact (d.rank_lt s s').2 p h

theorem DebugSearch.next_lt (d : DebugSearch) (s : SearchState) (p : Bytes) (s' : SearchState)
    (h : d.next s = some (p, s')) : d.rank s' < d.rank s := by
  induction hn : d.rank s using Nat.strong_induction_on generalizing s with
  | _ n ih =>
    rw [next] at h
    split at h
    · cases h
    · rename_i s1 hs
      have hl := (d.rank_lt s s1).1 hs
      have := ih _ (by omega) s1 h rfl
      omega
    · rename_i q s1 hs
      have hl := (d.rank_lt s s1).2 q hs
      split at h
      · have := ih _ (by omega) s1 h rfl
        omega
      · cases h; omega

/-- `Iterator`: all candidates from a state on. -/
def DebugSearch.collect (d : DebugSearch) (s : SearchState) : List Bytes :=
  match h : d.next s with
  | some (p, s') => p :: d.collect s'
  | none => []
termination_by d.rank s
decreasing_by exact d.next_lt s p s' h

/-- `src/dwarf/debug_link.rs:60-74` (`DebugFileIter::new`) and iteration. -/
def DebugSearch.candidates (d : DebugSearch) : List Bytes := d.collect .buildId

/-- The file system, as far as it matters: `std::fs::canonicalize` (the error distinguishes "not
found", `true`, from others), existence of a file, and the build ID of a file
(`src/helper.rs`, `read_elf_build_id`; errors count as none). -/
structure Files where
  canonicalize : Bytes → Except Bool Bytes
  exists_ : Bytes → Bool
  buildId : Bytes → Option Bytes

/-- `src/dwarf/resolver.rs:97-108` (`try_canonicalize(..).ok()`). -/
def tryCanonicalize (fs : Files) (path : Bytes) : Option Bytes :=
  match fs.canonicalize path with
  | .ok p => some p
  | .error notFound => if notFound then some path else none

/-- The iteration set up by `src/dwarf/resolver.rs:120-124`. -/
def debugSearch (fs : Files) (file : Bytes) (linker : Option Bytes) (dirs : List Bytes) : DebugSearch :=
  let canonical := linker.bind (tryCanonicalize fs)
  ⟨dirs, canonical, file, canonical.bind fs.buildId⟩

/-- `src/dwarf/resolver.rs:119-136` (`find_debug_file`). -/
def findDebugFile (fs : Files) (file : Bytes) (linker : Option Bytes) (dirs : List Bytes) : Option Bytes :=
  (debugSearch fs file linker dirs).candidates.find? fs.exists_

end Blazesym.Dwarf
