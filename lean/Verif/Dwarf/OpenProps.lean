import Verif.Dwarf.Open
import Verif.Elf.NotesProps
import Verif.Util.InsertSorter

/-!
# Which file debug information is taken from

`C41` says what the debug link of a file is, `C40` which file it leads to (`findDebugFile`).
-/

set_option autoImplicit false

namespace Blazesym.Dwarf
open Blazesym.Util Blazesym.Symbolize Blazesym.Cache

theorem eval_andThen {P Pr D E : Type} (lookup : P → Except Err Pr) (g : Prog P Pr D)
    (k : D → Prog P Pr E) :
    (andThen g k).eval lookup =
      match g.eval lookup with
      | .error e => .error e
      | .ok d => (k d).eval lookup := by
  induction g with
  | done r => cases r <;> rfl
  | ask p next ih => rw [andThen, Prog.eval, ih, Prog.eval]

/-- What `from_parser` does with given answers. -/
theorem fromParser_eval (t : Tools) (fs : Files) (dirs : List Bytes) (parser : ElfParser)
    (lookup : Bytes → Except Err ElfParser) :
    (fromParser t fs dirs parser).eval lookup =
      match (derefDebugLink t fs dirs parser).eval lookup with
      | .error e => .error e
      | .ok linkee =>
        match (findDwp parser).eval lookup with
        | .error e => .error e
        | .ok dwp =>
          match t.load (linkee.getD parser).image (dwp.map ElfParser.image) with
          | .error e => .error e
          | .ok units => .ok ⟨units, linkee⟩ := by
  unfold fromParser
  rw [eval_andThen]
  cases (derefDebugLink t fs dirs parser).eval lookup with
  | error e => rfl
  | ok linkee =>
    simp only
    rw [eval_andThen]
    cases (findDwp parser).eval lookup with
    | error e => rfl
    | ok dwp =>
      simp only
      cases t.load (linkee.getD parser).image (dwp.map ElfParser.image) <;> rfl

/-- What becomes of the debug link. -/
theorem deref_eval (t : Tools) (fs : Files) (dirs : List Bytes) (parser : ElfParser)
    (lookup : Bytes → Except Err ElfParser) :
    (derefDebugLink t fs dirs parser).eval lookup =
      match Elf.readDebugLink t.codec parser.image with
      | .error e => .error e
      | .ok none => .ok none
      | .ok (some (file, checksum)) =>
        match findDebugFile fs file parser.module dirs with
        | none => .ok none
        | some path =>
          match lookup path with
          | .error e => .error e
          | .ok dst => if t.crc32 dst.image.data ≠ checksum then .error .invalidData else .ok (some dst) := by
  unfold derefDebugLink
  cases Elf.readDebugLink t.codec parser.image with
  | error e => rfl
  | ok o =>
    cases o with
    | none => rfl
    | some x =>
      obtain ⟨file, checksum⟩ := x
      simp only
      cases findDebugFile fs file parser.module dirs with
      | none => rfl
      | some path =>
        simp only [Prog.eval]
        cases lookup path with
        | error e => rfl
        | ok dst =>
          simp only
          by_cases hc : t.crc32 dst.image.data = checksum
          · simp [hc, Prog.eval]
          · simp [hc, Prog.eval]

theorem dwp_eval (parser : ElfParser) (lookup : Bytes → Except Err ElfParser) :
    (findDwp parser).eval lookup =
      match parser.module with
      | none => .ok none
      | some path =>
        match lookup (path ++ ascii ".dwp") with
        | .ok dwp => .ok (some dwp)
        | .error .notFound => .ok none
        | .error e => .error e := by
  unfold findDwp
  cases parser.module with
  | none => rfl
  | some path =>
    simp only [Prog.eval]
    cases lookup (path ++ ascii ".dwp") with
    | ok dwp => rfl
    | error e => cases e <;> rfl

/-- **C66** if the debug information of a file is taken from another file, then that is the one the
debug link of the file leads to, and its checksum is the one recorded in the link. -/
theorem C66_linked (t : Tools) (fs : Files) (dirs : List Bytes) (parser dst : ElfParser)
    (lookup : Bytes → Except Err ElfParser) (d : DebugData)
    (h : (fromParser t fs dirs parser).eval lookup = .ok d) (hl : d.linkee = some dst) :
    ∃ file path, Elf.readDebugLink t.codec parser.image = .ok (some (file, t.crc32 dst.image.data)) ∧
      findDebugFile fs file parser.module dirs = some path ∧ lookup path = .ok dst := by
  rw [fromParser_eval, deref_eval] at h
  cases hr : Elf.readDebugLink t.codec parser.image with
  | error e => rw [hr] at h; simp at h
  | ok o =>
    rw [hr] at h
    cases o with
    | none =>
      simp only at h
      split at h
      · cases h
      · split at h
        · cases h
        · cases h; cases hl
    | some x =>
      obtain ⟨file, checksum⟩ := x
      simp only at h
      cases hf : findDebugFile fs file parser.module dirs with
      | none =>
        rw [hf] at h
        simp only at h
        split at h
        · cases h
        · split at h
          · cases h
          · cases h; cases hl
      | some path =>
        rw [hf] at h
        simp only at h
        cases hk : lookup path with
        | error e => rw [hk] at h; simp at h
        | ok q =>
          rw [hk] at h
          simp only at h
          by_cases hc : t.crc32 q.image.data = checksum
          · rw [if_neg (by simp [hc])] at h
            simp only at h
            split at h
            · cases h
            · split at h
              · cases h
              · cases h
                have hq : q = dst := Option.some.inj hl
                subst hq
                exact ⟨file, path, by rw [hc], hf, hk⟩
          · rw [if_pos hc] at h
            simp at h

/-- **C66** the debug information is taken from the file itself only if it has no debug link or the
debug link leads nowhere. -/
theorem C66_own (t : Tools) (fs : Files) (dirs : List Bytes) (parser : ElfParser)
    (lookup : Bytes → Except Err ElfParser) (d : DebugData)
    (h : (fromParser t fs dirs parser).eval lookup = .ok d) (hl : d.linkee = none) :
    Elf.readDebugLink t.codec parser.image = .ok none ∨
    ∃ file sum, Elf.readDebugLink t.codec parser.image = .ok (some (file, sum)) ∧
      findDebugFile fs file parser.module dirs = none := by
  rw [fromParser_eval, deref_eval] at h
  cases hr : Elf.readDebugLink t.codec parser.image with
  | error e => rw [hr] at h; simp at h
  | ok o =>
    rw [hr] at h
    cases o with
    | none => exact Or.inl rfl
    | some x =>
      obtain ⟨file, checksum⟩ := x
      simp only at h
      cases hf : findDebugFile fs file parser.module dirs with
      | none => exact Or.inr ⟨file, checksum, rfl, hf⟩
      | some path =>
        exfalso
        rw [hf] at h
        simp only at h
        cases hk : lookup path with
        | error e => rw [hk] at h; simp at h
        | ok q =>
          rw [hk] at h
          simp only at h
          by_cases hc : t.crc32 q.image.data = checksum
          · rw [if_neg (by simp [hc])] at h
            simp only at h
            split at h
            · cases h
            · split at h
              · cases h
              · cases h; cases hl
          · rw [if_pos hc] at h
            simp at h

/-- **C66** what is loaded: the file with the debug information, together with the package next to the
file itself if there is one. -/
theorem C66_loaded (t : Tools) (fs : Files) (dirs : List Bytes) (parser : ElfParser)
    (lookup : Bytes → Except Err ElfParser) (d : DebugData)
    (h : (fromParser t fs dirs parser).eval lookup = .ok d) :
    ∃ dwp : Option ElfParser,
      t.load (d.linkee.getD parser).image (dwp.map ElfParser.image) = .ok d.units ∧
      match dwp with
      | some q => ∃ path, parser.module = some path ∧ lookup (path ++ ascii ".dwp") = .ok q
      | none => ∀ path, parser.module = some path → lookup (path ++ ascii ".dwp") = .error .notFound := by
  rw [fromParser_eval, dwp_eval] at h
  cases hd : (derefDebugLink t fs dirs parser).eval lookup with
  | error e => rw [hd] at h; simp at h
  | ok linkee =>
    rw [hd] at h
    simp only at h
    cases hm : parser.module with
    | none =>
      rw [hm] at h
      simp only at h
      split at h
      · cases h
      · rename_i u hu
        cases h
        exact ⟨none, hu, by simp⟩
    | some path =>
      rw [hm] at h
      simp only at h
      cases hk : lookup (path ++ ascii ".dwp") with
      | ok q =>
        rw [hk] at h
        simp only at h
        split at h
        · cases h
        · rename_i u hu
          cases h
          exact ⟨some q, hu, path, rfl, hk⟩
      | error e =>
        rw [hk] at h
        cases e with
        | notFound =>
          simp only at h
          split at h
          · cases h
          · rename_i u hu
            cases h
            refine ⟨none, hu, ?_⟩
            intro p hp
            cases hp
            exact hk
        | _ => simp at h

/-- **C66** a file whose checksum is not the one recorded in the debug link is an error; the debug
information is not taken from somewhere else instead. -/
theorem C66_checksum (t : Tools) (fs : Files) (dirs : List Bytes) (parser dst : ElfParser)
    (lookup : Bytes → Except Err ElfParser) (file path : Bytes) (sum : Nat)
    (hl : Elf.readDebugLink t.codec parser.image = .ok (some (file, sum)))
    (hf : findDebugFile fs file parser.module dirs = some path) (hk : lookup path = .ok dst)
    (hc : t.crc32 dst.image.data ≠ sum) :
    (fromParser t fs dirs parser).eval lookup = .error .invalidData := by
  rw [fromParser_eval, deref_eval, hl]
  simp only [hf, hk]
  rw [if_pos hc]

/-- **C66** neither is one that cannot be opened. -/
theorem C66_unreadable (t : Tools) (fs : Files) (dirs : List Bytes) (parser : ElfParser)
    (lookup : Bytes → Except Err ElfParser) (file path : Bytes) (sum : Nat) (e : Err)
    (hl : Elf.readDebugLink t.codec parser.image = .ok (some (file, sum)))
    (hf : findDebugFile fs file parser.module dirs = some path) (hk : lookup path = .error e) :
    (fromParser t fs dirs parser).eval lookup = .error e := by
  rw [fromParser_eval, deref_eval, hl]
  simp only [hf, hk]

/-- **C66** a package that exists but cannot be opened is an error, too. -/
theorem C66_package (t : Tools) (fs : Files) (dirs : List Bytes) (parser : ElfParser)
    (lookup : Bytes → Except Err ElfParser) (path : Bytes) (e : Err)
    (hm : parser.module = some path) (hk : lookup (path ++ ascii ".dwp") = .error e)
    (he : e ≠ .notFound) :
    ∃ e', (fromParser t fs dirs parser).eval lookup = .error e' := by
  rw [fromParser_eval, dwp_eval, hm]
  cases hd : (derefDebugLink t fs dirs parser).eval lookup with
  | error e => exact ⟨_, rfl⟩
  | ok linkee =>
    simp only [hk]
    cases e <;> first | exact absurd rfl he | exact ⟨_, rfl⟩

/-- **C66** without a debug link, or with one that leads nowhere, the file's own debug information is
used; with one that leads to a file with the right checksum, that file's. -/
theorem C66_succeeds (t : Tools) (fs : Files) (dirs : List Bytes) (parser : ElfParser)
    (lookup : Bytes → Except Err ElfParser) (linkee : Option ElfParser) (dwp : Option Elf.Backend)
    (units : Units)
    (hlink : match linkee with
      | none => Elf.readDebugLink t.codec parser.image = .ok none ∨
          ∃ file sum, Elf.readDebugLink t.codec parser.image = .ok (some (file, sum)) ∧
            findDebugFile fs file parser.module dirs = none
      | some dst => ∃ file path,
          Elf.readDebugLink t.codec parser.image = .ok (some (file, t.crc32 dst.image.data)) ∧
          findDebugFile fs file parser.module dirs = some path ∧ lookup path = .ok dst)
    (hdwp : match dwp with
      | none => ∀ path, parser.module = some path → lookup (path ++ ascii ".dwp") = .error .notFound
      | some img => ∃ path m, parser.module = some path ∧ lookup (path ++ ascii ".dwp") = .ok ⟨m, img⟩)
    (hload : t.load (linkee.getD parser).image dwp = .ok units) :
    (fromParser t fs dirs parser).eval lookup = .ok ⟨units, linkee⟩ := by
  have h1 : (derefDebugLink t fs dirs parser).eval lookup = .ok linkee := by
    rw [deref_eval]
    cases linkee with
    | none =>
      rcases hlink with h | ⟨file, sum, h1, h2⟩
      · rw [h]
      · rw [h1]; simp only [h2]
    | some dst =>
      obtain ⟨file, path, h1, h2, h3⟩ := hlink
      rw [h1]
      simp [h2, h3]
  rw [fromParser_eval, h1, dwp_eval]
  cases dwp with
  | none =>
    cases hm : parser.module with
    | none => simp only [Option.map_none, hload]
    | some path =>
      simp only [hdwp path hm, Option.map_none, hload]
  | some img =>
    obtain ⟨path, m, h2, h3⟩ := hdwp
    simp only [h2, h3, Option.map_some, hload]

/-- **C66** the symbols that are found in the debug information are reported with the requested file
as module, and with offsets into that file, wherever the debug information is taken from. -/
theorem C66_module (t : Tools) (parser : ElfParser) (d : DebugData) (name : Bytes)
    (opts : Elf.FindAddrOpts) (functions : List Function) (syms : List CApi.SymInfo)
    (hf : d.units.findName t.σ name d.units.units = .ok functions) (hne : functions ≠ [])
    (h : debugFindAddr t parser d name opts = .ok syms) :
    syms.length = functions.length ∧ ∀ s ∈ syms, s.module = parser.module ∧
      (opts.fileOffset = true → ∃ size, s.size = some size ∧
        (parser.file t).findFileOffset s.addr size = .ok s.fileOffset) := by
  unfold debugFindAddr at h
  split at h
  · cases h
  · rw [hf] at h
    simp only [bind, Except.bind] at h
    cases hs : (d.resolver t parser).symInfos opts.fileOffset functions with
    | error e => rw [hs] at h; simp at h
    | ok infos =>
      rw [hs] at h
      simp only at h
      have key : ∀ fns infos, (d.resolver t parser).symInfos opts.fileOffset fns = .ok infos →
          infos.length = fns.length ∧ ∀ i ∈ infos, opts.fileOffset = true →
            ∃ size, i.size = some size ∧ (parser.file t).findFileOffset i.addr size = .ok i.fileOffset := by
        intro fns
        induction fns with
        | nil => intro infos h; simp [Resolver.symInfos] at h; subst h; simp
        | cons f fns ih =>
          intro infos h
          rw [Resolver.symInfos] at h
          simp only [bind, Except.bind] at h
          cases hi : (d.resolver t parser).symInfo f opts.fileOffset with
          | error e => rw [hi] at h; simp at h
          | ok o =>
            rw [hi] at h
            cases o with
            | none => simp at h
            | some i =>
              simp only at h
              cases hr : (d.resolver t parser).symInfos opts.fileOffset fns with
              | error e => rw [hr] at h; simp at h
              | ok rest =>
                rw [hr] at h
                simp only [pure, Except.pure] at h
                have := Except.ok.inj h; subst this
                obtain ⟨h1, h2⟩ := ih rest hr
                refine ⟨by simp [h1], ?_⟩
                intro j hj hoff
                rcases List.mem_cons.mp hj with rfl | hj
                · unfold Resolver.symInfo at hi
                  cases hn : f.name with
                  | none => rw [hn] at hi; simp at hi
                  | some n =>
                    rw [hn] at hi
                    simp only at hi
                    split at hi
                    · cases hi
                    · simp only [hoff, if_true, bind, Except.bind, pure, Except.pure] at hi
                      split at hi
                      · cases hi
                      · rename_i off ho
                        have := Option.some.inj (Except.ok.inj hi)
                        subst this
                        exact ⟨_, rfl, ho⟩
                · exact h2 j hj hoff
      obtain ⟨h1, h2⟩ := key functions infos hs
      have hne' : infos.isEmpty = false := by
        cases infos with
        | nil => simp at h1; exact absurd (List.length_eq_zero_iff.mp h1.symm) hne
        | cons a l => rfl
      rw [hne'] at h
      simp only [Bool.false_eq_true, if_false] at h
      have := Except.ok.inj h; subst this
      refine ⟨by simp [h1], ?_⟩
      intro s hs
      obtain ⟨i, hi, rfl⟩ := List.mem_map.mp hs
      exact ⟨rfl, fun ho => h2 i hi ho⟩

/-- **C66** does not hold for symbols that are only in the symbol table: if there is a separate file
with debug information, what is reported is what that file's symbol table says, with that file as
module and with offsets into it. -/
theorem C66_fallback_wrong (t : Tools) (parser dst : ElfParser) (units : Units) (name : Bytes)
    (opts : Elf.FindAddrOpts) (hv : opts.symType ≠ .variable)
    (hf : units.findName t.σ name units.units = .ok []) :
    debugFindAddr t parser ⟨units, some dst⟩ name opts = dst.findAddr t name opts ∧
    ∀ syms, dst.findAddr t name opts = .ok syms → ∀ s ∈ syms, s.module = dst.module := by
  refine ⟨?_, ?_⟩
  · unfold debugFindAddr
    rw [if_neg hv]
    simp only [hf, bind, Except.bind]
    simp [Resolver.symInfos]
  · intro syms h s hs
    unfold ElfParser.findAddr at h
    split at h
    · cases h
    · have := Except.ok.inj h; subst this
      obtain ⟨i, _, rfl⟩ := List.mem_map.mp hs
      rfl

/-- **C66** the same for the symbol of an address. -/
theorem C66_fallback_sym_wrong (t : Tools) (parser dst : ElfParser) (units : Units) (addr : Nat)
    (opts : FindSymOpts) (sym : ResolvedSym) (hf : units.findFunction t.σ addr = .ok none)
    (h : (ElfResolver.dwarf parser ⟨units, some dst⟩).findSym t addr opts = .ok (.ok sym)) :
    sym.module = dst.module := by
  unfold ElfResolver.findSym Resolver.findSym at h
  simp only [DebugData.resolver, hf, bind, Except.bind, Option.getD_some] at h
  cases he : dst.findSym t addr opts with
  | error e => rw [he] at h; simp at h
  | ok r =>
    rw [he] at h
    cases r with
    | error reason => simp [pure, Except.pure] at h
    | ok s0 =>
      simp only at h
      cases hfill : units.fillCodeInfo t.σ s0 addr opts none with
      | error e => rw [hfill] at h; simp at h
      | ok s1 =>
        rw [hfill] at h
        simp only [pure, Except.pure] at h
        have := Except.ok.inj (Except.ok.inj h); subst this
        have h0 : s0.module = dst.module := by
          unfold ElfParser.findSym at he
          split at he
          · cases he
          · cases he
          · have := Except.ok.inj (Except.ok.inj he); subst this; rfl
        have h1 : s1.module = s0.module := by
          unfold Units.fillCodeInfo at hfill
          split at hfill
          · have := Except.ok.inj hfill; subst this; rfl
          · simp only [bind, Except.bind] at hfill
            split at hfill
            · cases hfill
            · split at hfill
              · have := Except.ok.inj hfill; subst this; rfl
              · split at hfill <;> · have := Except.ok.inj hfill; subst this; rfl
        rw [h1, h0]

/-! ### An example -/

/-- Tools with a toy checksum and toy demangling. -/
def exTools : Tools where
  σ := insertSorter
  codec := Elf.noCodec
  crc32 := List.length
  load := fun _ _ => .ok ⟨[], []⟩
  demangler := ⟨fun name => some (name ++ [33]), fun _ => none⟩

/-- A file system with one debug file. -/
def exFiles : Files := ⟨.ok, fun p => p == ascii "/usr/lib/debug/a.d", fun _ => none⟩

theorem exFiles_find (dirs : List Bytes) :
    findDebugFile exFiles (ascii "a.d") (some (ascii "/bin/a")) (ascii "/usr/lib/debug" :: dirs) =
    some (ascii "/usr/lib/debug/a.d") := by
  have e : debugSearch exFiles (ascii "a.d") (some (ascii "/bin/a")) (ascii "/usr/lib/debug" :: dirs) =
      ⟨ascii "/usr/lib/debug" :: dirs, some (ascii "/bin/a"), ascii "a.d", none⟩ := rfl
  unfold findDebugFile
  rw [e]
  unfold DebugSearch.candidates
  rw [DebugSearch.collect, DebugSearch.next]
  simp only [DebugSearch.step]
  rw [DebugSearch.next]
  simp only [DebugSearch.step, List.getElem?_cons_zero]
  rw [if_neg (by simp only [DebugSearch.isLinker]; decide +kernel)]
  rw [List.find?_cons_of_pos (by decide +kernel)]
  decide +kernel

/-- The file with a debug link, and a debug file with the right checksum. -/
def exLinked : ElfParser := ⟨some (ascii "/bin/a"), .mem 4096 Elf.linkElf⟩
def exDebug : ElfParser := ⟨some (ascii "/usr/lib/debug/a.d"), .mem 4096 (Elf.tinyElf ++ List.replicate 49 0)⟩

/-- What is at which path. -/
def exLookup (debug : ElfParser) (path : Bytes) : Except Err ElfParser :=
  if path = ascii "/usr/lib/debug/a.d" then .ok debug else .error .notFound

set_option maxRecDepth 20000 in
theorem exLinked_link : Elf.readDebugLink exTools.codec exLinked.image = .ok (some (ascii "a.d", 513)) := by
  show Elf.readDebugLink Elf.noCodec (.mem 4096 Elf.linkElf) = _
  decide

/-- The debug file is used if its checksum is right, and only then. -/
example : (fromParser exTools exFiles [ascii "/usr/lib/debug"] exLinked).eval (exLookup exDebug) =
      .ok ⟨⟨[], []⟩, some exDebug⟩ ∧
    (fromParser exTools exFiles [ascii "/usr/lib/debug"] exLinked).eval
      (exLookup ⟨some (ascii "/usr/lib/debug/a.d"), .mem 4096 Elf.tinyElf⟩) = .error .invalidData := by
  constructor
  · refine C66_succeeds exTools exFiles _ exLinked _ (some exDebug) none ⟨[], []⟩ ?_ ?_ rfl
    · refine ⟨ascii "a.d", _, ?_, exFiles_find _, if_pos rfl⟩
      rw [show exTools.crc32 exDebug.image.data = 513 by decide +kernel]
      exact exLinked_link
    · intro path h
      have h' : ascii "/bin/a" = path := Option.some.inj h
      subst h'
      exact if_neg (by decide +kernel)
  · exact C66_checksum exTools exFiles _ exLinked _ _ _ _ 513 exLinked_link (exFiles_find _) (if_pos rfl)
      (by decide +kernel)

set_option maxRecDepth 20000 in
/-- A symbol that is only in the symbol table is reported as one of the debug file. -/
example : (debugFindAddr exTools exLinked ⟨⟨[], []⟩, some exDebug⟩ (ascii "f") ⟨true, .undefined⟩).map
      (List.map CApi.SymInfo.module) = .ok [some (ascii "/usr/lib/debug/a.d")] ∧
    exLinked.module = some (ascii "/bin/a") := by decide +kernel

end Blazesym.Dwarf
