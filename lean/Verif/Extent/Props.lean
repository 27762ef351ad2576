import Verif.Extent.Lemmas
import Verif.Session.RoundTripProps
import Verif.Session.DebugAnswerProps

/-! # C101: a reported symbol contains the address -/

set_option autoImplicit false

namespace Blazesym.Extent
open Blazesym.Util Blazesym.Symbolize Blazesym.Spec Blazesym.Spec.Symbolize Blazesym.Spec.Extent

variable {M K : Type}

/-- **C101** (partial: not for the kernel, and the debug information that is used has to have one extent for each
function) Whatever the files, the memory and the mappings of processes contain, every symbol that is reported for one
of many addresses, or for a single address, ends behind this address, unless its size is not known. -/
theorem C101_inside_partial {cfg : Settings M K} (hd : HonestDispatch cfg) (w : World M) (v : Versions M)
    (maps : Nat → Except Err (List (Except Err Maps.Entry))) (src : Source) (_hk : ∀ ks, src ≠ .kernel ks)
    (ht : Debug src → DebugFits cfg.tools) :
    (∀ input outs, symbolize (envAt cfg w v maps) src input = .ok outs → ∀ o ∈ outs, Inside o) ∧
    ∀ input out, symbolizeSingle (envAt cfg w v maps) src input = .ok out → Inside out := by
  obtain ⟨debug, h1, h2⟩ := asks src
  have he := envAt_honest hd (fun h => ht (h2 h)) w v maps
  exact ⟨fun _ _ h => batch_inside he h1 h, fun _ _ h => single_inside he h1 h⟩

/-- **C101** (address) What is reported for an address that needs no translation starts as far before this address as
the offset says, with and without debug information. -/
theorem C101_placed (cfg : Settings M K) (w : World M) (v : Versions M)
    (maps : Nat → Except Err (List (Except Err Maps.Entry))) (x : Nat) (out : Symbolized) :
    (∀ path debugSyms, symbolizeSingle (envAt cfg w v maps) (.elf path debugSyms) (.virtOffset x) = .ok out →
      Placed x out) ∧
    (∀ path, symbolizeSingle (envAt cfg w v maps) (.breakpad path) (.fileOffset x) = .ok out → Placed x out) ∧
    (∀ data, symbolizeSingle (envAt cfg w v maps) (.gsymData data) (.virtOffset x) = .ok out → Placed x out) ∧
    ∀ path, symbolizeSingle (envAt cfg w v maps) (.gsymFile path) (.virtOffset x) = .ok out → Placed x out := by
  generalize envAt cfg w v maps = env
  refine ⟨?_, ?_, ?_, ?_⟩
  · intro path debugSyms h
    cases hr : env.elf path path debugSyms with
    | error e => simp [symbolizeSingle, Input.map, symbolizeImpl, hr] at h
    | ok r => exact with_placed ((C44_looked _ _ _ _).mpr ((C42_elf_virt_offset env path debugSyms r x _ hr).mp h))
  · intro path h
    cases hr : env.breakpad path with
    | error e => simp [symbolizeSingle, Input.map, symbolizeImpl, hr] at h
    | ok f => exact with_placed ((C44_looked _ _ _ _).mpr ((C42_breakpad env path f x _ hr).mp h))
  · intro data h
    cases hr : env.gsymData data with
    | error e => simp [symbolizeSingle, Input.map, symbolizeImpl, hr] at h
    | ok f => exact with_placed ((C44_looked _ _ _ _).mpr (((C42_gsym env data f x _).1 hr).mp h))
  · intro path h
    cases hr : env.gsymFile path with
    | error e => simp [symbolizeSingle, Input.map, symbolizeImpl, hr] at h
    | ok f => exact with_placed ((C44_looked _ _ _ _).mpr (((C42_gsym env path f x _).2 hr).mp h))

/-- **C101** (partial: for orderly histories, see C68) The same holds for what a symbolizer reports that was used
before, with everything it has cached. -/
theorem C101_histories_partial [DecidableEq M] {cfg : Settings M K} (hd : HonestDispatch cfg) (hb : DispatchByName cfg)
    {k : Known M} (hlen : ∀ m data, k.contents m = .ok (.ok data) → data.length < 2 ^ 63) {s : State M K}
    (hr : Reachable cfg (Orderly cfg k) s) (w : World M) (src : Source) (hk : ∀ ks, src ≠ .kernel ks)
    (ht : Debug src → DebugFits cfg.tools) :
    (∀ input outs, Orderly cfg k s w (.symbolize src input) → (s.symbolize cfg w src input).1 = .ok outs →
      ∀ o ∈ outs, Inside o) ∧
    ∀ input out, Orderly cfg k s w (.symbolizeSingle src input) → (s.symbolizeSingle cfg w src input).1 = .ok out →
      Inside out := by
  constructor
  · intro input outs ho h
    rw [C68_answer_partial hb hlen hr w src hk input ho] at h
    exact (C101_inside_partial hd w _ _ src hk ht).1 input outs h
  · intro input out ho h
    rw [C68_single_partial hb hlen hr w src hk input ho] at h
    exact (C101_inside_partial hd w _ _ src hk ht).2 input out h

/-! ### Examples -/

theorem exHonest : HonestDispatch exSettings := ⟨fun _ hd => (nomatch hd), fun _ hd => (nomatch hd)⟩

/-- The offset and the size that are reported. -/
def extentOf : Except Err Symbolized → Option (Nat × Option Nat)
  | .ok (.sym s) => some (s.offset, s.size)
  | _ => none

set_option maxRecDepth 20000 in
/-- An address in a function of an ELF file, one in generated code, one in a member of an archive and one in the vDSO. -/
example : [0x400008, 0x500008, 0x600028, 0x7f0008].map (fun addr => extentOf (symbolizeSingle
      (envAt exSettings exRich (present exRich) exRich.maps) (.process ⟨7, false, true, false, true⟩) (.absAddr addr))) =
    [some (8, some 16), some (8, some 16), some (8, some 16), some (8, some 16)] := by decide +kernel

example (addrs : List Nat) (outs : List Symbolized)
    (h : symbolize (envAt exSettings exRich (present exRich) exRich.maps) (.process ⟨7, false, true, false, true⟩)
      (.absAddr addrs) = .ok outs) : ∀ o ∈ outs, Inside o :=
  (C101_inside_partial exHonest exRich _ _ (.process ⟨7, false, true, false, true⟩) (by intro ks h; cases h) (by intro h; cases h)).1 _ _ h

/-- A request to the symbolizer that was used before is orderly. -/
theorem exOrderly : Orderly exSettings RoundTrip.exKnown RoundTrip.exSymbolizer (Normalize.exNorm 0 1).toSession
    (.symbolizeSingle (.process RoundTrip.exSource) (.absAddr 0x400008)) := by
  have hr := RoundTrip.exSymbolizer_reachable
  have hr2 := reachable_mono (ok' := SameContents RoundTrip.exKnown.contents) (fun _ _ _ h => orderly_same _ _ _ h.1) hr
  have hr3 := reachable_mono (ok' := fun s w c => SameContents RoundTrip.exKnown.contents s w c ∧ NotCaching c)
    (fun _ _ _ h => ⟨orderly_same _ _ _ h.1, h.2⟩) hr
  obtain ⟨h1, h2⟩ := uncached_unpinned hr3
  have hv : versions RoundTrip.exSymbolizer (Normalize.exNorm 0 1).toSession =
      present (Normalize.exNorm 0 1).toSession := by
    have h3 := h1.present ((loose_reachable hr2).2.elf.trans rfl) (Normalize.exNorm 0 1).toSession.disk.stat
    rw [C68_present rfl hr2]
    simp only [versions, h3, present]
  have hm : mapsOf (Normalize.exNorm 0 1).toSession RoundTrip.exSymbolizer.vmas = (Normalize.exNorm 0 1).toSession.maps := by
    funext pid
    simp [mapsOf, h2]
  exact ⟨rfl, by rw [hv, hm]; exact RoundTrip.exFits⟩

example (out : Symbolized) (h : (RoundTrip.exSymbolizer.symbolizeSingle exSettings (Normalize.exNorm 0 1).toSession
      (.process RoundTrip.exSource) (.absAddr 0x400008)).1 = .ok out) : Inside out :=
  (C101_histories_partial exHonest (by intro d hd; cases hd) (k := RoundTrip.exKnown) RoundTrip.exSmall
    (reachable_mono (fun _ _ _ h => h.1) RoundTrip.exSymbolizer_reachable) _ (.process RoundTrip.exSource)
    (by intro ks h; cases h) (by intro h; cases h)).2 _ _ exOrderly h

/-- A function that has a list of ranges and, besides, a lowest address and an end before that of the list. -/
def exBothEntry : Dwarf.Entry :=
  ⟨.subprogram, false, [⟨.name, .string Dwarf.exFoo⟩, ⟨.lowPc, .addr 0x1000⟩, ⟨.highPc, .udata 4⟩,
    ⟨.ranges, .rangeList (.ok ⟨[⟨0x1000, 0x1010⟩], none⟩)⟩], none⟩

def exBothDies : Dwarf.DieUnit where
  version := 4
  entries := fun o => .ok (([(11, .entry Dwarf.exRoot), (20, .entry exBothEntry), (120, .null)] : Dwarf.Stream).filter
    (fun x => decide (o.getD 0 ≤ x.1)))

def exBoth : Dwarf.Sections :=
  { Dwarf.exFile with
    headers := [{ Dwarf.exFileHeader with unit := .ok { Dwarf.exFileMain with dies := exBothDies } }] }

/-- A symbolizer whose files have this debug information. -/
def exBothSettings : Settings Nat _root_.Unit :=
  { exSettings with tools := { exSettings.tools with load := fun _ _ => Dwarf.parseUnits insertSorter exBoth } }

set_option maxRecDepth 20000 in
/-- **C101** (negation) The symbol of a function that has both kinds of extent in debug information may end before the
address it is reported for. -/
theorem C101_debug_wrong : ∃ out,
    symbolizeSingle (envAt exBothSettings exRich (present exRich) exRich.maps) (.elf (ascii "/bin/c") true)
      (.virtOffset 0x1008) = .ok out ∧ ¬ Inside out := by
  have h : extentOf (symbolizeSingle (envAt exBothSettings exRich (present exRich) exRich.maps)
      (.elf (ascii "/bin/c") true) (.virtOffset 0x1008)) = some (8, some 4) := by decide +kernel
  generalize symbolizeSingle (envAt exBothSettings exRich (present exRich) exRich.maps)
    (.elf (ascii "/bin/c") true) (.virtOffset 0x1008) = r at h
  cases r with
  | error e => cases h
  | ok out =>
    refine ⟨out, rfl, ?_⟩
    cases out with
    | unknown _ => cases h
    | sym s =>
      intro hi
      simp only [extentOf, Option.some.injEq, Prod.mk.injEq] at h
      have := hi 4 h.2 (by decide)
      omega

set_option maxRecDepth 20000 in
/-- **C101** (negation, kernel) The offset that is reported for a symbol of the kernel that is not loaded at the address
it was linked for is beyond the end of the symbol. -/
theorem C101_kernel_wrong : ∃ out,
    symbolizeSingle (envNow exDebugKernel (exMachine 2 true) (State.new exDebugKernel))
      (.kernel ⟨.default, .some (ascii "/stext"), none, true⟩) (.absAddr 0x300a) = .ok out ∧ ¬ Inside out := by
  have h : extentOf (symbolizeSingle (envNow exDebugKernel (exMachine 2 true) (State.new exDebugKernel))
      (.kernel ⟨.default, .some (ascii "/stext"), none, true⟩) (.absAddr 0x300a)) = some (0x200a, some 0x40) := by
    decide +kernel
  generalize symbolizeSingle (envNow exDebugKernel (exMachine 2 true) (State.new exDebugKernel))
    (.kernel ⟨.default, .some (ascii "/stext"), none, true⟩) (.absAddr 0x300a) = r at h
  cases r with
  | error e => cases h
  | ok out =>
    refine ⟨out, rfl, ?_⟩
    cases out with
    | unknown _ => cases h
    | sym s =>
      intro hi
      simp only [extentOf, Option.some.injEq, Prod.mk.injEq] at h
      have := hi 0x40 h.2 (by decide)
      omega

/-- The debug information of the example is as it should be. -/
theorem exFits : DebugFits exDebugSettings.tools := by
  intro image package units h
  refine ⟨Dwarf.exFile, h, by simp [Spec.Dwarf.HeadersSorted, Dwarf.exFile], ?_⟩
  rintro addr hd d x ⟨hm, _⟩ ⟨stream, ⟨main, h1, h2, h3⟩, h4, _⟩
  simp only [Dwarf.exFile, List.mem_singleton] at hm
  subst hm
  cases h1
  rcases h2 with h2 | ⟨_, rfl⟩
  · cases h2
  · rw [show Dwarf.exFileMain.dies.entries none = .ok Dwarf.exFileStream from Dwarf.exFile_stream] at h3
    cases h3
    rw [Dwarf.exFile_functions] at h4
    simp only [List.mem_singleton] at h4
    subst h4
    exact .inl rfl

example (addrs : List Nat) (outs : List Symbolized)
    (h : symbolize (envAt exDebugSettings exRich (present exRich) exRich.maps) (.process ⟨7, true, true, false, true⟩)
      (.absAddr addrs) = .ok outs) : ∀ o ∈ outs, Inside o :=
  (C101_inside_partial (cfg := exDebugSettings) ⟨exHonest.1, exHonest.2⟩ exRich _ _
    (.process ⟨7, true, true, false, true⟩) (by intro ks h; cases h) (fun _ => exFits)).1 _ _ h

end Blazesym.Extent
