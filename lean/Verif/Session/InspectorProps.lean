import Verif.Session.InspectorSpec
import Verif.Session.ElfLemmas
import Verif.Dwarf.OpenProps

/-! # The answers of an inspector do not depend on its history -/

set_option autoImplicit false

namespace Blazesym.Inspect
open Blazesym.Util Blazesym.Cache Blazesym.Dwarf Blazesym.Spec Blazesym.Spec.Inspect

variable {M : Type} [DecidableEq M]

/-- The effective version is the present one. -/
theorem effective_eq_stat {P F T : Type} [DecidableEq P] {s : FileCache P M F T} (ha : s.autoReload = true)
    (hp : ∀ q m, ¬ Current s q true m) (stat : P → Except Err M) : effective s stat = stat := by
  funext p
  apply effective_stat
  rintro ⟨b, m, hc, hb⟩
  rcases hb with rfl | hb
  · exact hp p m hc
  · rw [ha] at hb; cases hb

/-- What is known about an inspector whatever has happened. -/
structure Sound (contents : M → Except Err (Except Err Bytes)) (s : Inspector M) : Prop where
  breakpad : Faithful contents (fun _ f t => breakpadParse f = .ok t) s.breakpad
  breakpadAuto : s.breakpad.autoReload = true
  breakpadPins : ∀ q m, ¬ Current s.breakpad q true m
  elf : Faithful contents (ElfCache.PlainVal elfParse (fun _ _ => True)) s.elf
  elfAuto : s.elf.autoReload = true
  elfPins : ∀ q m, ¬ Current s.elf q true m

theorem no_current_new {P F T : Type} [DecidableEq P] (ar : Bool) (q : P) (m : M) :
    ¬ Current (FileCache.new ar : FileCache P M F T) q true m := by
  rintro ⟨pe, h, _⟩
  simp [FileCache.new, InsertMap.get, InsertMap.find] at h

theorem sound_new (contents : M → Except Err (Except Err Bytes)) : Sound contents (Inspector.new : Inspector M) :=
  ⟨faithful_new _ _ _, rfl, no_current_new true, faithful_new _ _ _, rfl, no_current_new true⟩

theorem sound_elf {contents : M → Except Err (Except Err Bytes)} {s : Inspector M} (hs : Sound contents s)
    {stat : Bytes → Except Err M} {elf : ElfCache Bytes M (Except Err Bytes) ElfParser DebugData}
    (h1 : Faithful contents (ElfCache.PlainVal elfParse (fun _ _ => True)) elf)
    (h2 : Frame stat s.elf elf) : Sound contents { s with elf } :=
  ⟨hs.breakpad, hs.breakpadAuto, hs.breakpadPins, h1, h2.autoReload.trans hs.elfAuto,
    fun q m h => hs.elfPins q m (h2.pins q m h)⟩

theorem breakpadResolver_sound {w : World M} {s : Inspector M} (hs : Sound w.disk.contents s)
    (path : Bytes) :
    (s.breakpadResolver w path).1 = breakpadNow w path ∧
    Sound w.disk.contents (s.breakpadResolver w path).2 ∧
    (s.breakpadResolver w path).2.elf = s.elf := by
  obtain ⟨h1, h2, h3⟩ := resolve_faithful hs.breakpad path
  rw [effective_eq_stat hs.breakpadAuto hs.breakpadPins] at h1
  unfold Inspector.breakpadResolver
  refine ⟨?_, ⟨h2, h3.autoReload.trans hs.breakpadAuto, fun q m h => hs.breakpadPins q m (h3.pins q m h),
    hs.elf, hs.elfAuto, hs.elfPins⟩, rfl⟩
  rw [h1]
  unfold ofVersion breakpadNow Disk.opened breakpadParse
  cases w.disk.stat path with
  | error e => rfl
  | ok m =>
    simp only
    cases w.disk.contents m with
    | error e => rfl
    | ok f => cases f <;> rfl

theorem elfResolver_sound {t : Tools} {w : World M} {s : Inspector M} (hs : Sound w.disk.contents s)
    (path : Bytes) (debugSyms : Bool) : Sound w.disk.contents (s.elfResolver t w path debugSyms).2 := by
  unfold Inspector.elfResolver
  split
  · obtain ⟨h1, h2⟩ := ElfCache.dwarfOn_named (build := fromParser t w.files defaultDebugDirs) hs.elf path path
    cases hr : s.elf.dwarfOn w.disk elfParse (fromParser t w.files defaultDebugDirs) path path with
    | mk r elf =>
      rw [hr] at h1 h2
      cases r <;> exact sound_elf hs h1 h2
  · obtain ⟨_, h1, h2⟩ := ElfCache.plainOn_named hs.elf path path (fun _ _ => trivial)
    cases hr : s.elf.plainOn w.disk elfParse path path with
    | mk r elf =>
      rw [hr] at h1 h2
      cases r <;> exact sound_elf hs h1 h2

/-- The state after a call depends on the source only. -/
theorem lookup_state (t : Tools) (s : Inspector M) (w : World M) (src : Source) (names : List Bytes) :
    (s.lookup t w src names).2 =
      match src with
      | .breakpad path => (s.breakpadResolver w path).2
      | .elf path debugSyms => (s.elfResolver t w path debugSyms).2 := by
  unfold Inspector.lookup
  cases src with
  | breakpad path => cases hr : s.breakpadResolver w path with | mk r s' => cases r <;> simp [hr]
  | elf path ds => cases hr : s.elfResolver t w path ds with | mk r s' => cases r <;> simp [hr]

theorem forEach_state {S : Type} (t : Tools) (s : Inspector M) (w : World M) (src : Source)
    (f : S → CApi.SymInfo → S × Bool) (a : S) :
    (s.forEach t w src f a).2 =
      match src with
      | .breakpad path => (s.breakpadResolver w path).2
      | .elf path debugSyms => (s.elfResolver t w path debugSyms).2 := by
  unfold Inspector.forEach
  cases src with
  | breakpad path => cases hr : s.breakpadResolver w path with | mk r s' => cases r <;> simp [hr]
  | elf path ds => cases hr : s.elfResolver t w path ds with | mk r s' => cases r <;> simp [hr]

theorem reachable_sound {t : Tools} {contents : M → Except Err (Except Err Bytes)} {s : Inspector M}
    (h : Reachable t (SameContents contents) s) : Sound contents s := by
  have step : ∀ (s : Inspector M) (w : World M) (src : Source), Sound contents s →
      w.disk.contents = contents →
      Sound contents (match src with
        | .breakpad path => (s.breakpadResolver w path).2
        | .elf path debugSyms => (s.elfResolver t w path debugSyms).2) := by
    intro s w src hs hc
    subst hc
    cases src with
    | breakpad path => exact (breakpadResolver_sound hs path).2.1
    | elf path ds => exact elfResolver_sound hs path ds
  induction h with
  | new => exact sound_new _
  | lookup s w src names _ hok ih => rw [lookup_state]; exact step s w src ih hok
  | forEach s w src S f a _ hok ih => rw [forEach_state]; exact step s w src ih hok

/-- **C67** whatever an inspector has been used for, and however files have been replaced since, what it
looks up in a Breakpad file is what is in the file that is there now. -/
theorem C67_breakpad_lookup (t : Tools) (contents : M → Except Err (Except Err Bytes)) (s : Inspector M)
    (h : Reachable t (SameContents contents) s) (w : World M) (hw : w.disk.contents = contents)
    (path : Bytes) (names : List Bytes) :
    (s.lookup t w (.breakpad path) names).1 = lookupNow t w (.breakpad path) names := by
  subst hw
  obtain ⟨h1, _, _⟩ := breakpadResolver_sound (reachable_sound h) path
  unfold Inspector.lookup lookupNow
  simp only
  cases hr : s.breakpadResolver w path with
  | mk r s' =>
    rw [hr] at h1
    simp only at h1
    rw [← h1]
    cases r <;> rfl

/-- **C67** the same when visiting all of its symbols. -/
theorem C67_breakpad_for_each {S : Type} (t : Tools) (contents : M → Except Err (Except Err Bytes))
    (s : Inspector M) (h : Reachable t (SameContents contents) s) (w : World M)
    (hw : w.disk.contents = contents) (path : Bytes) (f : S → CApi.SymInfo → S × Bool) (a : S) :
    (s.forEach t w (.breakpad path) f a).1 = forEachNow t w (.breakpad path) f a := by
  subst hw
  obtain ⟨h1, _, _⟩ := breakpadResolver_sound (reachable_sound h) path
  unfold Inspector.forEach forEachNow
  simp only
  cases hr : s.breakpadResolver w path with
  | mk r s' =>
    rw [hr] at h1
    simp only at h1
    rw [← h1]
    cases r <;> rfl

/-- The plain ELF file, up to its name. -/
theorem elfResolver_plain {t : Tools} {w : World M} {s : Inspector M} (hs : Sound w.disk.contents s)
    (path : Bytes) :
    (∃ e, (s.elfResolver t w path false).1 = .error e ∧ openParser w.disk path = .error e) ∨
    ∃ q img, (s.elfResolver t w path false).1 = .ok (.elf ⟨some q, img⟩) ∧
      openParser w.disk path = .ok ⟨some path, img⟩ := by
  obtain ⟨⟨q, _, h1⟩, _, _⟩ := ElfCache.plainOn_named hs.elf path path (fun _ _ => trivial)
  rw [effective_eq_stat hs.elfAuto hs.elfPins] at h1
  unfold Inspector.elfResolver
  rw [if_neg (by simp)]
  cases hr : s.elf.plainOn w.disk elfParse path path with
  | mk r elf =>
    rw [hr] at h1
    simp only at h1
    subst h1
    unfold ofVersion openParser Disk.opened
    cases w.disk.stat path with
    | error e => exact Or.inl ⟨e, rfl, rfl⟩
    | ok m =>
      simp only
      cases w.disk.contents m with
      | error e => exact Or.inl ⟨e, rfl, rfl⟩
      | ok f =>
        cases f with
        | error e => exact Or.inl ⟨e, rfl, rfl⟩
        | ok data => exact Or.inr ⟨q, _, rfl, rfl⟩

/-- **C67** whatever an inspector has been used for, and however files have been replaced since, what it
looks up in the symbol tables of an ELF file is what is in the file that is there now, with one
exception: the module of the symbols may be another path (see `C67_module_wrong`). -/
theorem C67_elf_lookup_partial (t : Tools) (contents : M → Except Err (Except Err Bytes)) (s : Inspector M)
    (h : Reachable t (SameContents contents) s) (w : World M) (hw : w.disk.contents = contents)
    (path : Bytes) (names : List Bytes) :
    match (s.lookup t w (.elf path false) names).1, lookupNow t w (.elf path false) names with
    | .error e, .error e' => e = e'
    | .ok syms, .ok syms' => List.Forall₂ (List.Forall₂ Alike) syms syms'
    | _, _ => False := by
  subst hw
  have hs := reachable_sound h
  unfold Inspector.lookup lookupNow elfNow
  simp only [Bool.false_eq_true, if_false]
  rcases elfResolver_plain (t := t) hs path with ⟨e, h1, h2⟩ | ⟨q, img, h1, h2⟩
  · rw [h2]
    cases hr : s.elfResolver t w path false with
    | mk r s' =>
      rw [hr] at h1
      simp only at h1
      subst h1
      rfl
  · rw [h2]
    cases hr : s.elfResolver t w path false with
    | mk r s' =>
      rw [hr] at h1
      simp only at h1
      subst h1
      simp only
      have key : ∀ names,
          match lookupNames (fun name => (ElfResolver.elf ⟨some q, img⟩).findAddr t name ⟨true, .undefined⟩) names,
            lookupNames (fun name => (ElfResolver.elf ⟨some path, img⟩).findAddr t name ⟨true, .undefined⟩) names with
          | .error e, .error e' => e = e'
          | .ok syms, .ok syms' => List.Forall₂ (List.Forall₂ Alike) syms syms'
          | _, _ => False := by
        intro names
        induction names with
        | nil => exact List.Forall₂.nil
        | cons n names ih =>
          simp only [lookupNames, ElfResolver.findAddr, ElfParser.findAddr, ElfParser.findAddrInfos,
            ElfParser.file] at ih ⊢
          cases hf : (Elf.File.ofImage t.codec img).findAddr t.σ n ⟨true, .undefined⟩ with
          | error e => rfl
          | ok infos =>
            simp only
            revert ih
            generalize lookupNames _ names = a
            generalize lookupNames _ names = b
            intro ih
            cases a with
            | error e => cases b with
              | error e' => exact ih
              | ok y => exact ih
            | ok x =>
              cases b with
              | error e' => exact ih
              | ok y =>
                refine List.Forall₂.cons ?_ ih
                rw [List.forall₂_map_left_iff, List.forall₂_map_right_iff, List.forall₂_same]
                intro i _
                rfl
      exact key names

/-- **C67** the same when visiting all symbols; no module is reported then, so there is no exception. -/
theorem C67_elf_for_each {S : Type} (t : Tools) (contents : M → Except Err (Except Err Bytes))
    (s : Inspector M) (h : Reachable t (SameContents contents) s) (w : World M)
    (hw : w.disk.contents = contents) (path : Bytes) (f : S → CApi.SymInfo → S × Bool) (a : S) :
    (s.forEach t w (.elf path false) f a).1 = forEachNow t w (.elf path false) f a := by
  subst hw
  have hs := reachable_sound h
  unfold Inspector.forEach forEachNow elfNow
  simp only [Bool.false_eq_true, if_false]
  rcases elfResolver_plain (t := t) hs path with ⟨e, h1, h2⟩ | ⟨q, img, h1, h2⟩
  all_goals
    rw [h2]
    cases hr : s.elfResolver t w path false with
    | mk r s' =>
      rw [hr] at h1
      simp only at h1
      subst h1
      rfl

/-! ### Debug information -/

/-- What is known about an inspector that has only been used in orderly worlds. -/
structure Tidy (u : Universe Bytes M (Except Err Bytes) ElfParser DebugData) (s : Inspector M) : Prop where
  elf : Faithful u.contents (ElfCache.ElfVal u) s.elf
  elfAuto : s.elf.autoReload = true
  elfPins : ∀ q m, ¬ Current s.elf q true m

theorem eval_congr {P Pr D : Type} (g : Prog P Pr D) (l l' : P → Except Err Pr)
    (h : ∀ q ∈ g.asked l, l q = l' q) : g.eval l = g.eval l' := by
  induction g with
  | done r => rfl
  | ask p k ih =>
    rw [Prog.asked] at h
    rw [Prog.eval, Prog.eval, ← h p (List.mem_cons_self ..)]
    exact ih _ (fun q hq => h q (List.mem_cons_of_mem _ hq))

/-- Without a cache, a file that is used under its name. -/
theorem lookup_eq_open {u : Universe Bytes M (Except Err Bytes) ElfParser DebugData}
    (hu : u.parse = elfParse) {disk : Disk Bytes M (Except Err Bytes)} (hc : disk.contents = u.contents)
    (path : Bytes) (hn : ∀ m, disk.stat path = .ok m → u.name m = path) :
    u.lookup disk.stat path = openParser disk path := by
  unfold Universe.lookup ofVersion openParser Disk.opened
  cases hst : disk.stat path with
  | error e => rfl
  | ok m =>
    simp only
    rw [hc, hu, hn m hst]
    cases u.contents m <;> rfl

theorem elfResolver_tidy {t : Tools} {u : Universe Bytes M (Except Err Bytes) ElfParser DebugData}
    (hu : u.parse = elfParse) {w : World M} {s : Inspector M} (hs : Tidy u s) (path : Bytes)
    (debugSyms : Bool) (ho : Orderly t u w (.elf path debugSyms)) :
    (s.elfResolver t w path debugSyms).1 = elfNow t w path debugSyms ∧
    Tidy u (s.elfResolver t w path debugSyms).2 := by
  obtain ⟨hc, hn⟩ := ho
  have hdisk : w.disk = ⟨w.disk.stat, u.contents⟩ := by rw [← hc]
  have heff := effective_eq_stat hs.elfAuto hs.elfPins w.disk.stat
  have hlk := lookup_eq_open hu hc path (fun m hm => (hn m hm).1)
  unfold Inspector.elfResolver elfNow
  cases debugSyms with
  | false =>
    rw [if_neg (by simp), if_neg (by simp)]
    obtain ⟨h1, h2, h3, _⟩ := ElfCache.plainOn_faithful (stat := w.disk.stat) hs.elf path path
      (fun m hm => (hn m (by rw [← hm, heff])).1)
    rw [heff, hu] at h1
    rw [hu] at h2 h3
    rw [hdisk]
    cases hr : s.elf.plainOn ⟨w.disk.stat, u.contents⟩ elfParse path path with
    | mk r elf =>
      rw [hr] at h1 h2 h3
      simp only at h1 h2 h3
      rw [← hdisk, ← hlk, ← h1]
      refine ⟨?_, ?_⟩
      · cases r <;> rfl
      · cases r <;> exact ⟨h2, h3.autoReload.trans hs.elfAuto, fun q m h => hs.elfPins q m (h3.pins q m h)⟩
  | true =>
    rw [if_pos rfl, if_pos rfl]
    obtain ⟨h1, h2, h3⟩ := ElfCache.dwarfOn_faithful (stat := w.disk.stat)
      (build := fromParser t w.files defaultDebugDirs) hs.elf path path
      (fun m hm => by
        rw [heff] at hm ⊢
        exact ⟨(hn m hm).1, (hn m hm).2 rfl⟩)
    rw [heff, hu] at h1
    rw [hu] at h2 h3
    have hnow : openWithDebugDirs t w.files w.disk defaultDebugDirs path =
        match ofVersion u.contents u.withDebug (w.disk.stat path) with
        | .error e => .error e
        | .ok (p, d) => .ok (.dwarf p d) := by
      unfold openWithDebugDirs
      rw [← hlk]
      unfold Universe.lookup ofVersion Universe.withDebug
      cases hst : w.disk.stat path with
      | error e => rfl
      | ok m =>
        simp only
        cases hcm : u.contents m with
        | error e => rfl
        | ok f =>
          simp only
          cases hp : u.parse (u.name m) f with
          | error e => rfl
          | ok pr =>
            simp only
            obtain ⟨hd, ha⟩ := (hn m hst).2 rfl f pr hcm hp
            rw [← eval_congr (fromParser t w.files defaultDebugDirs pr) (u.lookup w.disk.stat)
              (openParser w.disk) (fun q hq => lookup_eq_open hu hc q (fun m' hm' => (ha q hq m' hm').2))]
            rw [show (fromParser t w.files defaultDebugDirs pr).eval (u.lookup w.disk.stat) = u.debug m from hd]
            cases u.debug m <;> rfl
    rw [hdisk]
    cases hr : s.elf.dwarfOn ⟨w.disk.stat, u.contents⟩ elfParse (fromParser t w.files defaultDebugDirs) path path with
    | mk r elf =>
      rw [hr] at h1 h2 h3
      simp only at h1 h2 h3
      rw [← hdisk]
      rw [show [ascii "/usr/lib/debug", ascii "/lib/debug/"] = defaultDebugDirs from rfl, hnow, ← h1]
      refine ⟨?_, ?_⟩
      · cases r <;> rfl
      · cases r <;> exact ⟨h2, h3.autoReload.trans hs.elfAuto, fun q m h => hs.elfPins q m (h3.pins q m h)⟩

theorem reachable_tidy {t : Tools} {u : Universe Bytes M (Except Err Bytes) ElfParser DebugData}
    (hu : u.parse = elfParse) {s : Inspector M} (h : Reachable t (Orderly t u) s) : Tidy u s := by
  have step : ∀ (s : Inspector M) (w : World M) (src : Source), Tidy u s → Orderly t u w src →
      Tidy u (match src with
        | .breakpad path => (s.breakpadResolver w path).2
        | .elf path debugSyms => (s.elfResolver t w path debugSyms).2) := by
    intro s w src hs ho
    cases src with
    | breakpad path => exact ⟨hs.elf, hs.elfAuto, hs.elfPins⟩
    | elf path ds => exact (elfResolver_tidy hu hs path ds ho).2
  induction h with
  | new => exact ⟨faithful_new _ _ _, rfl, no_current_new true⟩
  | lookup s w src names _ hok ih => rw [lookup_state]; exact step s w src ih hok
  | forEach s w src S f a _ hok ih => rw [forEach_state]; exact step s w src ih hok

/-- **C67** as long as no file is used under two names and files do not lose, get or exchange their
separate debug files, everything an inspector looks up is what is in the files that are there now,
debug information included, whatever it has been used for before. -/
theorem C67_debug_lookup_partial (t : Tools) (u : Universe Bytes M (Except Err Bytes) ElfParser DebugData)
    (hu : u.parse = elfParse) (s : Inspector M) (h : Reachable t (Orderly t u) s) (w : World M)
    (path : Bytes) (debugSyms : Bool) (ho : Orderly t u w (.elf path debugSyms)) (names : List Bytes) :
    (s.lookup t w (.elf path debugSyms) names).1 = lookupNow t w (.elf path debugSyms) names := by
  obtain ⟨h1, _⟩ := elfResolver_tidy hu (reachable_tidy hu h) path debugSyms ho
  unfold Inspector.lookup lookupNow
  simp only
  cases hr : s.elfResolver t w path debugSyms with
  | mk r s' =>
    rw [hr] at h1
    simp only at h1
    rw [← h1]
    cases r <;> rfl

/-- **C67** the same when visiting all symbols. -/
theorem C67_debug_for_each_partial {S : Type} (t : Tools)
    (u : Universe Bytes M (Except Err Bytes) ElfParser DebugData) (hu : u.parse = elfParse)
    (s : Inspector M) (h : Reachable t (Orderly t u) s) (w : World M) (path : Bytes) (debugSyms : Bool)
    (ho : Orderly t u w (.elf path debugSyms)) (f : S → CApi.SymInfo → S × Bool) (a : S) :
    (s.forEach t w (.elf path debugSyms) f a).1 = forEachNow t w (.elf path debugSyms) f a := by
  obtain ⟨h1, _⟩ := elfResolver_tidy hu (reachable_tidy hu h) path debugSyms ho
  unfold Inspector.forEach forEachNow
  simp only
  cases hr : s.elfResolver t w path debugSyms with
  | mk r s' =>
    rw [hr] at h1
    simp only at h1
    rw [← h1]
    cases r <;> rfl

/-! ### What does not hold, and examples -/

/-- Two files: `/bin/a`, also known as `/bin/b`, with a debug link, and its debug file, which may be
there or not. -/
def exContents : Nat → Except Err (Except Err Bytes)
  | 0 => .ok (.ok Elf.linkElf)
  | 1 => .ok (.ok (Elf.tinyElf ++ List.replicate 49 0))
  | 2 => .ok (.ok Elf.tinyElf)
  | _ => .error .notFound

def exStat (debugFile : Bool) (p : Bytes) : Except Err Nat :=
  if p = ascii "/bin/a" then .ok 0
  else if p = ascii "/bin/c" ∨ p = ascii "/bin/d" then .ok 2
  else if debugFile = true ∧ p = ascii "/usr/lib/debug/a.d" then .ok 1 else .error .notFound

def exWorld (debugFile : Bool) : World Nat :=
  ⟨⟨exStat debugFile, exContents⟩,
    if debugFile then exFiles else ⟨.ok, fun _ => false, fun _ => none⟩⟩

set_option maxRecDepth 20000 in
/-- **C67** (negative) the module that is reported can be another path than the one that was asked for:
the path under which the same file was used first. -/
theorem C67_module_wrong :
    ((Inspector.new.lookup exTools (exWorld false) (.elf (ascii "/bin/c") false) []).2.lookup exTools
      (exWorld false) (.elf (ascii "/bin/d") false) [ascii "f"]).1.map (List.map (List.map CApi.SymInfo.module)) =
        .ok [[some (ascii "/bin/c")]] ∧
    (lookupNow exTools (exWorld false) (.elf (ascii "/bin/d") false) [ascii "f"]).map
      (List.map (List.map CApi.SymInfo.module)) = .ok [[some (ascii "/bin/d")]] := by
  constructor <;> decide +kernel

theorem exFiles_none (dirs : List Bytes) (file : Bytes) (linker : Option Bytes) :
    findDebugFile ⟨.ok, fun _ => false, fun _ => none⟩ file linker dirs = none := by
  unfold findDebugFile
  simp

/-- What it yields, given the answer for the package. -/
def exProg : Prog Bytes ElfParser DebugData :=
  .ask (ascii "/bin/a" ++ ascii ".dwp") (fun answer =>
    andThen (match answer with
      | .ok dwp => .done (.ok (some dwp))
      | .error .notFound => .done (.ok none)
      | .error e => .done (.error e)) fun _ => .done (.ok ⟨⟨[], []⟩, none⟩))

/-- The resolver of `/bin/a` while the debug file is missing. -/
theorem exFresh_none : fromParser exTools (exWorld false).files defaultDebugDirs exLinked = exProg := by
  unfold fromParser derefDebugLink
  rw [exLinked_link]
  simp only
  rw [show (exWorld false).files = ⟨.ok, fun _ => false, fun _ => none⟩ from rfl, exFiles_none]
  rfl

/-- The creation of the debug information matters only for the file that is looked up. -/
theorem dwarfOn_congr {P F Pr D : Type} [DecidableEq P] (s : ElfCache P M F Pr D) (disk : Disk P M F)
    (parse : P → F → Except Err Pr) (g g' : Pr → Prog P Pr D) (path represented : P) (m : M)
    (e : Entry F (ElfData Pr D)) (hv : e.value = none) (pr : Pr) (hp : parse represented e.file = .ok pr)
    (he : (s.entry path (disk.stat path) (disk.opened path)).1 = .ok (m, e)) (hg : g pr = g' pr) :
    s.dwarfOn disk parse g path represented = s.dwarfOn disk parse g' path represented := by
  unfold ElfCache.dwarfOn
  cases hr : s.entry path (disk.stat path) (disk.opened path) with
  | mk r s' =>
    rw [hr] at he
    simp only at he
    subst he
    simp only [hv, hp, hg]

/-- The cache after looking up `/bin/a` while its debug file is missing. -/
def exAfter : ElfCache Bytes Nat (Except Err Bytes) ElfParser DebugData :=
  (ElfCache.dwarfOn (FileCache.new true) (exWorld false).disk elfParse (fun _ => exProg)
    (ascii "/bin/a") (ascii "/bin/a")).2

theorem exAfter_eq : (Inspector.new.lookup exTools (exWorld false) (.elf (ascii "/bin/a") true) []).2 =
    ⟨FileCache.new true, exAfter⟩ := by
  rw [lookup_state]
  simp only
  unfold Inspector.elfResolver
  rw [if_pos rfl]
  rw [dwarfOn_congr _ _ _ _ (fun _ => exProg) _ _ 0 ⟨1, .ok Elf.linkElf, none⟩ rfl exLinked rfl rfl exFresh_none]
  rfl

/-- What creating the resolver of `/bin/a` yields while the debug file is there, given the answers. -/
def exProgSome : Prog Bytes ElfParser DebugData :=
  andThen (.ask (ascii "/usr/lib/debug/a.d") fun answer =>
    match answer with
    | .error e => .done (.error e)
    | .ok dst =>
      if exTools.crc32 dst.image.data ≠ 513 then .done (.error .invalidData)
      else .done (.ok (some dst))) fun linkee =>
    andThen (findDwp exLinked) fun _ => .done (.ok ⟨⟨[], []⟩, linkee⟩)

theorem exFresh_some : fromParser exTools (exWorld true).files defaultDebugDirs exLinked = exProgSome := by
  unfold fromParser derefDebugLink
  rw [exLinked_link]
  simp only
  rw [show (exWorld true).files = exFiles from rfl]
  rw [show findDebugFile exFiles (ascii "a.d") exLinked.module defaultDebugDirs =
    some (ascii "/usr/lib/debug/a.d") from exFiles_find _]
  rfl

set_option maxRecDepth 20000 in
/-- **C67** (negative) if a file's debug file appears after the file was first used, it is not used: the
symbol `f` of `/bin/a`, which is in the debug file only, is not found, although a new inspector does
find it. -/
theorem C67_debug_file_wrong :
    ((Inspector.new.lookup exTools (exWorld false) (.elf (ascii "/bin/a") true) []).2.lookup exTools
      (exWorld true) (.elf (ascii "/bin/a") true) [ascii "f"]).1.map (List.map List.length) = .ok [0] ∧
    (Inspector.new.lookup exTools (exWorld true) (.elf (ascii "/bin/a") true) [ascii "f"]).1.map
      (List.map List.length) = .ok [1] := by
  constructor
  · rw [exAfter_eq]
    decide +kernel
  · unfold Inspector.lookup Inspector.elfResolver
    simp only
    rw [if_pos trivial]
    rw [dwarfOn_congr _ _ _ _ (fun _ => exProgSome) _ _ 0 ⟨1, .ok Elf.linkElf, none⟩ rfl exLinked rfl rfl
      exFresh_some]
    decide +kernel

/-- What the files are, as seen while the debug file is there. -/
def exUniverse : Universe Bytes Nat (Except Err Bytes) ElfParser DebugData where
  contents := exContents
  name := fun m => if m = 0 then ascii "/bin/a" else if m = 1 then ascii "/usr/lib/debug/a.d" else ascii "/bin/c"
  parse := elfParse
  debug := fun _ => .ok ⟨⟨[], []⟩, some exDebug⟩

/-- Looking up symbols of `/bin/a` while its debug file is there is an orderly call, so it has the same
answer whatever orderly calls came before. -/
theorem exOrderly : Orderly exTools exUniverse (exWorld true) (.elf (ascii "/bin/a") true) := by
  refine ⟨rfl, ?_⟩
  intro m hm
  have h0 : (exWorld true).disk.stat (ascii "/bin/a") = .ok 0 := by decide +kernel
  have : m = 0 := by rw [h0] at hm; exact (Except.ok.inj hm).symm
  subst this
  refine ⟨rfl, fun _ => ?_⟩
  intro f pr hf hp
  have hf' := Except.ok.inj hf; subst hf'
  have hp' := Except.ok.inj hp; subst hp'
  have hb : fromParser exTools (exWorld true).files [ascii "/usr/lib/debug", ascii "/lib/debug/"]
      ⟨some (exUniverse.name 0), .mem 4096 Elf.linkElf⟩ = exProgSome := exFresh_some
  rw [hb]
  have h1 : (exWorld true).disk.stat (ascii "/usr/lib/debug/a.d") = .ok 1 := by decide +kernel
  have h2 : (exWorld true).disk.stat (ascii "/bin/a" ++ ascii ".dwp") = .error .notFound := by decide +kernel
  have l1 : exUniverse.lookup (exWorld true).disk.stat (ascii "/usr/lib/debug/a.d") = .ok exDebug := by
    unfold Universe.lookup; rw [h1]; rfl
  have l2 : exUniverse.lookup (exWorld true).disk.stat (ascii "/bin/a" ++ ascii ".dwp") = .error .notFound := by
    unfold Universe.lookup; rw [h2]; rfl
  have hc : ¬ (exTools.crc32 exDebug.image.data ≠ 513) := by decide +kernel
  have h3 : exProgSome.eval (exUniverse.lookup (exWorld true).disk.stat) = .ok ⟨⟨[], []⟩, some exDebug⟩ ∧
      exProgSome.asked (exUniverse.lookup (exWorld true).disk.stat) =
        [ascii "/usr/lib/debug/a.d", ascii "/bin/a" ++ ascii ".dwp"] := by
    constructor
    · simp only [exProgSome, andThen, Prog.eval, l1, if_neg hc, findDwp, exLinked, l2]
    · simp only [exProgSome, andThen, Prog.asked, l1, if_neg hc, findDwp, exLinked, l2]
  refine ⟨h3.1, ?_⟩
  rw [h3.2]
  intro q hq m' hm'
  rcases List.mem_cons.mp hq with rfl | hq
  · rw [h1] at hm'
    have := Except.ok.inj hm'; subst this
    exact ⟨by decide, by decide +kernel⟩
  · have := List.mem_singleton.mp hq; subst this
    rw [h2] at hm'; cases hm'

example (names : List Bytes) : Reachable exTools (Orderly exTools exUniverse)
    (Inspector.new.lookup exTools (exWorld true) (.elf (ascii "/bin/a") true) names).2 :=
  .lookup _ _ _ _ .new exOrderly

end Blazesym.Inspect
