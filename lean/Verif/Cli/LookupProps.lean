import Verif.Session.NameAnswerProps
import Verif.Cli.SymbolFileProps

/-! Property theorems C83 (what the command line tool prints for names, from the contents of files). -/

set_option autoImplicit false

namespace Blazesym.Cli
open Blazesym.Util Blazesym.Spec Blazesym.Spec.Cli Blazesym.Spec.Inspect
open Blazesym.Elf (SymTab Shdr Phdr Backend)
open Blazesym.Inspect (Inspector)

variable {M : Type}

theorem feed_collect (l infos : List CApi.SymInfo) :
    (Spec.Elf.feed (fun l i => (l ++ [i], false)) l infos).1 = l ++ infos := by
  induction infos generalizing l with
  | nil => simp [Spec.Elf.feed]
  | cons i infos ih =>
    simp only [Spec.Elf.feed]
    rw [ih]
    simp

/-- What is printed for lists of symbols, one list for each name: if all of them can be printed, they can be read
back, those of each name in the order of their addresses. -/
def PrintsGroups (out : Outcome) (found : List (List CApi.SymInfo)) : Prop :=
  (∀ syms ∈ found, ∀ s ∈ syms, PlainSym s ∧ s.name.length < 65535) →
    out.result = .ok () ∧ ∃ groups : List (List CApi.SymInfo), readListed out.stdout = some (groups.flatten.map listedOf) ∧
      List.Forall₂ (fun syms group => group.Perm syms ∧ StableSorted CApi.SymInfo.addr syms group) found groups

/-- What is printed for a list of symbols: the same. -/
def PrintsAll (out : Outcome) (visited : List CApi.SymInfo) : Prop :=
  (∀ s ∈ visited, PlainSym s ∧ s.name.length < 65535) →
    out.result = .ok () ∧ ∃ syms : List CApi.SymInfo, readListed out.stdout = some (syms.map listedOf) ∧
      syms.Perm visited ∧ StableSorted CApi.SymInfo.addr visited syms

/-- **C83** (command line tool, `inspect lookup elf`; partial: symbols that cannot be printed, see
`C77_lookup_long_name_panics`) What is printed for names in an ELF file: functions of the debug information, or symbols. -/
theorem C83_cli_lookup_elf_partial [DecidableEq M] (p : Platform) (w : Inspect.World M)
    {u : Universe Bytes M (Except Err Bytes) Dwarf.ElfParser Dwarf.DebugData} (hu : u.parse = Dwarf.elfParse)
    {path data : Bytes} (ho : Orderly p.tools u w (.elf path true)) (hd : w.disk.opened path = .ok (.ok data)) {d : Dwarf.DebugData}
    (hdd : (Dwarf.fromParser p.tools w.files [ascii "/usr/lib/debug", ascii "/lib/debug/"] ⟨some path, .mem 4096 data⟩).eval
      (Dwarf.openParser w.disk) = .ok d) {phdrs : List Phdr} {file : Bytes} {source : Backend}
    (hp : DebugPartsOf p.tools path data d phdrs file source) {shdrs : List Shdr} {symtab dynsym : SymTab}
    (hs : SymbolsOf p.tools.codec source shdrs symtab dynsym) (names : List Bytes) (hn : ∀ n ∈ names, isUtf8 n = true) :
    ∃ found, List.Forall₂ (NamedInDebug path phdrs d.units.units file shdrs symtab dynsym) names found ∧
      PrintsGroups (runInspect p w (.lookupElf path names)) found := by
  obtain ⟨found, h1, h2⟩ := Inspect.C83_debug_partial p.tools u hu (Inspector.new : Inspector M) .new w ho hd hdd hp hs names hn
  exact ⟨found, h2, fun h => (C77_lookup_partial p w _ _ _ (.lookupElf path names)).2 found h1 h⟩

/-- **C83** (command line tool, `inspect lookup breakpad`; partial: symbols that cannot be printed) What is printed for
names in a Breakpad file: its `FUNC` records with these names. -/
theorem C83_cli_lookup_breakpad_partial [DecidableEq M] (p : Platform) (w : Inspect.World M) {path text : Bytes}
    (hd : w.disk.opened path = .ok (.ok text)) {rs : List Breakpad.Record} (hp : Spec.Breakpad.IsSymbolFile rs text)
    (names : List Bytes) :
    ∃ found, List.Forall₂ (fun name infos => ∃ listed, StableSorted (fun f => pairKey f.addr f.size)
        ((Spec.Breakpad.functions rs).filter (fun f => decide (f.name = name))) listed ∧
        List.Forall₂ TellsRecord listed infos) names found ∧
      PrintsGroups (runInspect p w (.lookupBreakpad path names)) found := by
  obtain ⟨found, h1, h2⟩ := Inspect.C83_breakpad p.tools w hd hp names (Inspector.new : Inspector M) .new
  exact ⟨found, h2, fun h => (C77_lookup_partial p w _ _ _ (.lookupBreakpad path names)).2 found h1 h⟩

/-- **C83** (command line tool, `inspect dump elf --no-debug-syms`; partial: symbols that cannot be printed) What is printed
is all defined symbols of `.symtab`, and those of `.dynsym` at other addresses. -/
theorem C83_cli_dump_elf_partial [DecidableEq M] (p : Platform) (w : Inspect.World M) {path data : Bytes}
    (hd : w.disk.opened path = .ok (.ok data)) {shdrs : List Shdr} {symtab dynsym : SymTab}
    (hp : SymbolsOf p.tools.codec (.mem 4096 data) shdrs symtab dynsym) :
    ∃ first second, OneEach none shdrs symtab Own first ∧ FromDynsym none shdrs symtab dynsym Own second ∧
      PrintsAll (runInspect p w (.dumpElf path true)) (first ++ second) := by
  obtain ⟨a, b, h1, h2, h3⟩ := Inspect.C83_elf_all_partial p.tools w hd hp
  refine ⟨a, b, h1, h2, fun h => (C77_dump_partial p w _ (.elf path false) (.dumpElf path true false (by simp)) (.ok ()) _ ?_).2 rfl h⟩
  rw [h3 _ .new, feed_collect, feed_collect]
  rfl

/-- **C83** (command line tool, `inspect dump elf`; partial: symbols that cannot be printed, and see C65) What is printed
is the functions of the debug information that have names. -/
theorem C83_cli_dump_debug_partial [DecidableEq M] (p : Platform) (w : Inspect.World M)
    {u : Universe Bytes M (Except Err Bytes) Dwarf.ElfParser Dwarf.DebugData} (hu : u.parse = Dwarf.elfParse)
    {path data : Bytes} (ho : Orderly p.tools u w (.elf path true)) (hd : w.disk.opened path = .ok (.ok data)) {d : Dwarf.DebugData}
    (hdd : (Dwarf.fromParser p.tools w.files [ascii "/usr/lib/debug", ascii "/lib/debug/"] ⟨some path, .mem 4096 data⟩).eval
      (Dwarf.openParser w.disk) = .ok d) {phdrs : List Phdr} {file : Bytes} {source : Backend}
    (hp : DebugPartsOf p.tools path data d phdrs file source)
    (htext : ∀ u ∈ d.units.units, ∀ du stream, Spec.Dwarf.EntriesOf u.header du stream →
      ∀ x ∈ Spec.Dwarf.functionsIn stream, ∀ n, Spec.Dwarf.HasName d.units.units du x.2.attrs (some n) → isUtf8 n = true) :
    ∃ xs infos, Spec.Dwarf.AllFunctions d.units.units xs ∧ EachNamed path phdrs d.units.units xs infos ∧
      PrintsAll (runInspect p w (.dumpElf path false)) infos := by
  obtain ⟨xs, infos, h1, h2, h3⟩ := Inspect.C83_debug_all_partial (S := List CApi.SymInfo) p.tools u hu w ho hd hdd hp htext
  refine ⟨xs, infos, h1, h2, fun h => (C77_dump_partial p w _ (.elf path true) (.dumpElf path false true (by simp)) (.ok ()) _ ?_).2 rfl h⟩
  rw [h3 _ .new, feed_collect]
  rfl

/-- **C83** (command line tool, `inspect dump breakpad`; partial: symbols that cannot be printed) What is printed is all
`FUNC` records. -/
theorem C83_cli_dump_breakpad_partial [DecidableEq M] (p : Platform) (w : Inspect.World M) {path text : Bytes}
    (hd : w.disk.opened path = .ok (.ok text)) {rs : List Breakpad.Record} (hp : Spec.Breakpad.IsSymbolFile rs text) :
    ∃ listed infos, StableSorted (fun f => pairKey f.addr f.size) (Spec.Breakpad.functions rs) listed ∧
      List.Forall₂ TellsRecord listed infos ∧ PrintsAll (runInspect p w (.dumpBreakpad path)) infos := by
  obtain ⟨listed, infos, h1, h2, h3⟩ := Inspect.C83_breakpad_all p.tools w hd hp
  refine ⟨listed, infos, h1, h2, fun h => (C77_dump_partial p w _ _ (.dumpBreakpad path) (.ok ()) _ ?_).2 rfl h⟩
  rw [h3 _ .new, feed_collect]
  rfl

/-! ### Examples -/

set_option maxRecDepth 20000 in
/-- What is printed for the example of debug information, and what the theorem says about it. -/
example : (runInspect exDebugPlatform (Inspect.exWorld false) (.lookupElf (ascii "/bin/c") [Dwarf.exFoo, ascii "f"])).result = .ok () ∧
    ∃ (units : Dwarf.Units) (found : List (List CApi.SymInfo)),
      List.Forall₂ (NamedInDebug (ascii "/bin/c") [Symbolize.tinyPhdr] units.units (ascii "/bin/c") Inspect.tinyShdrs
        Symbolize.tinySymtab ⟨[], []⟩) [Dwarf.exFoo, ascii "f"] found ∧
      PrintsGroups (runInspect exDebugPlatform (Inspect.exWorld false) (.lookupElf (ascii "/bin/c") [Dwarf.exFoo, ascii "f"])) found := by
  refine ⟨by decide +kernel, ?_⟩
  obtain ⟨units, hu⟩ := Dwarf.C36_accepted insertSorter _ Dwarf.exFile_ok
  obtain ⟨h1, u, h2, h3⟩ := Inspect.orderly_alone Symbolize.exDebugTools Inspect.exWorld_c Inspect.exDebug_alone Inspect.exDebug_dwp
  rw [show Symbolize.exDebugTools.load (.mem 4096 Elf.tinyElf) none = .ok units from hu] at h1
  obtain ⟨found, h4, h5⟩ := C83_cli_lookup_elf_partial exDebugPlatform (Inspect.exWorld false) h2 h3 Inspect.exWorld_c h1
    (Inspect.exDebug_parts hu) Inspect.tinySymbols [Dwarf.exFoo, ascii "f"] (by decide)
  exact ⟨units, found, h4, h5⟩

set_option maxRecDepth 20000 in
/-- What is printed for a Breakpad file, and what it is when read back. -/
example : (readListed (runInspect exDebugPlatform Inspect.exNamesWorld (.dumpBreakpad (ascii "/s.sym"))).stdout).map
      (List.map fun l => (l.name, l.addr)) =
    some [(ascii "f", 0x10), (ascii "a", 0x18), (ascii "g", 0x20), (ascii "g", 0x30)] ∧
    ∃ rs, Spec.Breakpad.IsSymbolFile rs (ascii Breakpad.dups) ∧
      Inspect.exNamesWorld.disk.opened (ascii "/s.sym") = .ok (.ok (ascii Breakpad.dups)) := by
  refine ⟨by decide +kernel, ?_⟩
  obtain ⟨rs, h⟩ := Inspect.dups_ok
  exact ⟨rs, h, by decide +kernel⟩

set_option maxRecDepth 20000 in
/-- All symbols of an ELF file. -/
example : (readListed (runInspect exDebugPlatform (Inspect.exWorld false) (.dumpElf (ascii "/bin/c") true)).stdout).map
      (List.map fun l => (l.name, l.addr)) = some [(ascii "f", 0x1000)] ∧
    ∃ first second, OneEach none Inspect.tinyShdrs Symbolize.tinySymtab Own first ∧
      FromDynsym none Inspect.tinyShdrs Symbolize.tinySymtab ⟨[], []⟩ Own second ∧
      PrintsAll (runInspect exDebugPlatform (Inspect.exWorld false) (.dumpElf (ascii "/bin/c") true)) (first ++ second) :=
  ⟨by decide +kernel, C83_cli_dump_elf_partial exDebugPlatform (Inspect.exWorld false) Inspect.exWorld_c Inspect.tinySymbols⟩

end Blazesym.Cli
