import Verif.TwoWay.Props
import Verif.Session.NameAnswerProps
import Verif.Session.BreakpadAnswerProps

/-! # C98: inspecting files and symbolizing with them

The same for the objects that users have: what an inspector, used in any way before, reports for
names in a file, and what is reported for these addresses when they are symbolized with this file. -/

set_option autoImplicit false

namespace Blazesym.TwoWay
open Blazesym.Util Blazesym.Dwarf Blazesym.Spec Blazesym.Spec.TwoWay
open Blazesym.Inspect (Inspector)
open Blazesym.Symbolize (World Settings Symbolized symbolizeSingle)
open Blazesym.Spec.Symbolize (HasContents ElfParts Sound InElf shownBy envAt Versions)
open Blazesym.Spec.Elf (Covers Supported Defined NearestStart GoodNames)

variable {M K : Type}

theorem alike_name {a b : CApi.SymInfo} (h : Spec.Inspect.Alike a b) : a.name = b.name := by
  simpa using congrArg CApi.SymInfo.name h
theorem alike_addr {a b : CApi.SymInfo} (h : Spec.Inspect.Alike a b) : a.addr = b.addr := by
  simpa using congrArg CApi.SymInfo.addr h
theorem alike_size {a b : CApi.SymInfo} (h : Spec.Inspect.Alike a b) : a.size = b.size := by
  simpa using congrArg CApi.SymInfo.size h

theorem stands_at_start {t : Elf.SymTab} {table : Elf.Table} {s : Elf.Sym} (hs : s ∈ t.syms) (hsup : Supported s)
    (hd : Defined s) (hn : GoodNames t) : ∃ name, Spec.Symbolize.StandsFor t table s.value s name := by
  obtain ⟨n, h1, h2⟩ := hn s hs hsup
  refine ⟨n, hs, hd, hsup, ⟨le_refl _, ?_⟩, ⟨le_refl _, ⟨s, hs, hsup, rfl⟩, fun _ _ _ h => h⟩, h1, h2⟩
  split
  · exact .inr rfl
  · omega

theorem stands_same {t : Elf.SymTab} {table : Elf.Table} {s s' : Elf.Sym} {name : Bytes} (hs : s ∈ t.syms)
    (hsup : Supported s) (h : Spec.Symbolize.StandsFor t table s.value s' name) : s'.value = s.value := by
  have a := h.nearest.1
  have b := h.nearest.2.2 s hs hsup (le_refl _)
  omega

/-- What is reported at the start of a symbol. -/
theorem inElf_start {shown : Bytes → Bytes} {module : Bytes} {symtab dynsym : Elf.SymTab} {s : Elf.Sym} {out : Symbolized}
    (hn1 : GoodNames symtab) (hn2 : GoodNames dynsym) (hsup : Supported s) (hd : Defined s)
    (hw : s ∈ symtab.syms ∨ s ∈ dynsym.syms ∧
      ∀ s' ∈ symtab.syms, Supported s' → Defined s' → ¬ Covers .symtab s' s.value)
    (h : InElf shown module symtab dynsym s.value out) : IsStart s.value out := by
  have key : ∀ s' name, s'.value = s.value → IsStart s.value (Spec.Symbolize.reported shown module s.value s' name) := by
    intro s' name e
    exact ⟨_, rfl, e, by simp only [e, Nat.sub_self]⟩
  rcases hw with hs | ⟨hs, hno⟩
  · obtain ⟨n, hst⟩ := stands_at_start (table := .symtab) hs hsup hd hn1
    cases h with
    | symtab s' name h => exact key s' name (stands_same hs hsup h)
    | dynsym s' name ha _ => exact absurd rfl (ha s n hst).1
    | missing he _ => rw [he] at hs; cases hs
    | unknown _ ha _ => exact absurd rfl (ha s n hst).1
  · obtain ⟨n, hst⟩ := stands_at_start (table := .dynsym) hs hsup hd hn2
    cases h with
    | symtab s' name h => exact absurd h.covers (hno s' h.mem h.supported h.defined)
    | dynsym s' name _ h => exact key s' name (stands_same hs hsup h)
    | missing _ ha => exact absurd rfl (ha s n hst).1
    | unknown _ _ ha => exact absurd rfl (ha s n hst).1

theorem goodNames_of_sound {t : Elf.SymTab} (h : Sound t) : GoodNames t := fun s hs _ => h.2 s hs

theorem firstInFile_unique {phdrs : List Elf.Phdr} {off : Nat} {p q : Elf.Phdr} (hp : Spec.Elf.FirstInFile phdrs off p)
    (hq : Spec.Elf.FirstInFile phdrs off q) : p = q := by
  obtain ⟨a, b, e1, h1, h2⟩ := hp
  obtain ⟨c, d, e2, h3, h4⟩ := hq
  induction a generalizing phdrs c with
  | nil =>
    cases c with
    | nil => rw [e1] at e2; simp at e2; exact e2.1
    | cons x c =>
      rw [e1] at e2
      simp at e2
      exact absurd h1 (h4 p (by rw [e2.1]; simp))
  | cons x a ih =>
    cases c with
    | nil =>
      rw [e1] at e2
      simp at e2
      exact absurd h3 (h2 q (by rw [← e2.1]; simp))
    | cons y c =>
      rw [e1] at e2
      simp at e2
      exact ih rfl (fun z hz => h2 z (List.mem_cons_of_mem _ hz)) c e2.2 (fun z hz => h4 z (List.mem_cons_of_mem _ hz))

/-- A symbol that is reported for a name is in one of the tables. -/
theorem namedIn_mem {module : Option Bytes} {shdrs : List Elf.Shdr} {symtab dynsym : Elf.SymTab} {name : Bytes}
    {infos : List CApi.SymInfo} (h : Spec.Inspect.NamedIn module shdrs symtab dynsym name infos) {info : CApi.SymInfo}
    (hi : info ∈ infos) :
    ∃ s, Supported s ∧ Defined s ∧ info.addr = s.value ∧
      (s ∈ symtab.syms ∨ s ∈ dynsym.syms ∧ ∀ s ∈ symtab.syms, ¬ Spec.Inspect.Bears symtab.strs name s) := by
  have one : ∀ (t : Elf.SymTab) (P : Elf.Sym → Prop), Spec.Inspect.OneEach module shdrs t P infos →
      ∃ s ∈ t.syms, P s ∧ info.addr = s.value := by
    intro t P ⟨is, _, hm, hf⟩
    obtain ⟨i, hi, s, hs, ht⟩ := (forall₂_exists hf).1 info hi
    obtain ⟨s', hs', hp⟩ := (hm i).mp hi
    rw [hs] at hs'
    cases hs'
    exact ⟨s, List.mem_of_getElem? hs, hp, ht.addr⟩
  cases h with
  | symtab _ h =>
    obtain ⟨s, h1, h2, h3⟩ := one _ _ h
    exact ⟨s, h2.1.1, h2.1.2, h3, .inl h1⟩
  | dynsym hno h =>
    obtain ⟨P, hP, _, h⟩ := h
    obtain ⟨s, h1, h2, h3⟩ := one _ _ h
    have := (hP s h2).1
    exact ⟨s, this.1.1, this.1.2, h3, .inr ⟨h1, hno⟩⟩

/-- **C98** (ELF files, from names to addresses; partial: not for symbols that are in `.dynsym` only while a symbol of
`.symtab` covers their address, see `C98_elf_wrong`) Every address that an inspector reports for a name in an ELF file
is reported as the start of a symbol when it is symbolized with this file, and so is its offset in the file, if
the segment that has it there is mapped to this address. -/
theorem C98_elf_files_partial [DecidableEq M] (cfg : Settings M K) (w : World M) (v : Versions M)
    (maps : Nat → Except Err (List (Except Err Maps.Entry))) {path data : Bytes}
    (hopen : w.disk.opened path = .ok (.ok data)) (hc : HasContents w (v.elf path) data)
    {shdrs : List Elf.Shdr} {phdrs : List Elf.Phdr} {symtab dynsym : Elf.SymTab}
    (hp : Spec.Inspect.SymbolsOf cfg.tools.codec (.mem 4096 data) shdrs symtab dynsym)
    (he : ElfParts cfg.tools.codec (.mem 4096 data) phdrs symtab dynsym) (h1 : Sound symtab) (h2 : Sound dynsym)
    (s : Inspector M) (hr : Spec.Inspect.Reachable cfg.tools (Spec.Inspect.SameContents w.disk.contents) s)
    (name : Bytes) (hn : isUtf8 name = true) :
    ∃ infos, (s.lookup cfg.tools w.toWorld (.elf path false) [name]).1 = .ok [infos] ∧
      ∀ info ∈ infos,
        ((∃ s ∈ symtab.syms, Supported s ∧ Defined s ∧ NameAt symtab.strs s.name name) ∨
          ∀ s ∈ symtab.syms, Supported s → Defined s → ¬ Covers .symtab s info.addr) →
        (∃ out, symbolizeSingle (envAt cfg w v maps) (.elf path false) (.virtOffset info.addr) = .ok out ∧
          IsStart info.addr out) ∧
        ∀ off p, info.fileOffset = some off → Spec.Elf.FirstInFile phdrs off p →
          p.vaddr + (off - p.offset) = info.addr →
          ∃ out, symbolizeSingle (envAt cfg w v maps) (.elf path false) (.fileOffset off) = .ok out ∧
            IsStart info.addr out := by
  obtain ⟨found, hf, hall⟩ := (Inspect.C83_elf_partial cfg.tools w.toWorld hopen hp [name] (by simpa using hn)).2 s hr
  cases hall with
  | cons ha hrest =>
    cases hrest
    rename_i infos
    obtain ⟨infos', hnamed, halike⟩ := ha
    refine ⟨infos, hf, fun info hi hcond => ?_⟩
    obtain ⟨info', hi', hal⟩ := (forall₂_exists halike).2 info hi
    have haddr : info.addr = info'.addr := alike_addr hal
    obtain ⟨y, y1, y2, y3, y4⟩ := namedIn_mem hnamed hi'
    have hy : info.addr = y.value := haddr.trans y3
    have hw : y ∈ symtab.syms ∨ y ∈ dynsym.syms ∧
        ∀ s' ∈ symtab.syms, Supported s' → Defined s' → ¬ Covers .symtab s' y.value := by
      rcases y4 with h | ⟨h, hno⟩
      · exact .inl h
      · refine .inr ⟨h, ?_⟩
        rcases hcond with ⟨x, x1, x2, x3, x4⟩ | hcov
        · exact absurd ⟨⟨x2, x3⟩, x4⟩ (hno x x1)
        · rw [← hy]; exact hcov
    have key := fun out (h : InElf (shownBy cfg .unknown) path symtab dynsym y.value out) =>
      inElf_start (goodNames_of_sound h1) (goodNames_of_sound h2) y1 y2 hw h
    rw [hy]
    constructor
    · obtain ⟨out, ho⟩ := (Symbolize.C72_total cfg w v maps hc he h1 h2 y.value).1
      exact ⟨out, ho, key out ((Symbolize.C72_elf_partial cfg w v maps hc he _ out).1 ho)⟩
    · intro off p _ hfirst hv
      obtain ⟨out, ho⟩ := (Symbolize.C72_total cfg w v maps hc he h1 h2 off).2.1
      refine ⟨out, ho, key out ?_⟩
      cases (Symbolize.C72_elf_partial cfg w v maps hc he off out).2 ho with
      | inside q _ hq h =>
        rw [firstInFile_unique hfirst hq] at hv
        rw [hv] at h
        exact h
      | outside hno =>
        obtain ⟨pre, post, e, hin, _⟩ := hfirst
        exact absurd hin (hno p (by rw [e]; simp))

/-- **C98** (ELF files, from addresses to names; partial: not where symbols of `.dynsym` cover the address, see
`C98_elf_hidden`) The name that is reported for an address, unless it is demangled, is found by an inspector at the start
that is reported. -/
theorem C98_elf_files_back_partial [DecidableEq M] (cfg : Settings M K) (hdem : cfg.demangle = false) (w : World M)
    (v : Versions M) (maps : Nat → Except Err (List (Except Err Maps.Entry))) {path data : Bytes}
    (hopen : w.disk.opened path = .ok (.ok data)) (hc : HasContents w (v.elf path) data)
    {shdrs : List Elf.Shdr} {phdrs : List Elf.Phdr} {symtab dynsym : Elf.SymTab}
    (hp : Spec.Inspect.SymbolsOf cfg.tools.codec (.mem 4096 data) shdrs symtab dynsym)
    (he : ElfParts cfg.tools.codec (.mem 4096 data) phdrs symtab dynsym)
    (s : Inspector M) (hr : Spec.Inspect.Reachable cfg.tools (Spec.Inspect.SameContents w.disk.contents) s)
    (x : Nat) (y : Symbolize.Sym)
    (h : symbolizeSingle (envAt cfg w v maps) (.elf path false) (.virtOffset x) = .ok (.sym y))
    (hno : ∀ s ∈ dynsym.syms, ¬ Covers .dynsym s x) :
    ∃ infos, (s.lookup cfg.tools w.toWorld (.elf path false) [y.name]).1 = .ok [infos] ∧
      ∃ info ∈ infos, info.name = y.name ∧ info.addr = y.addr ∧ info.size.getD 0 = y.size.getD 0 ∧
        info.addr + y.offset = x := by
  have hin := (Symbolize.C72_elf_partial cfg w v maps hc he x (.sym y)).1 h
  obtain ⟨q, name, hst, hy⟩ : ∃ q name, Spec.Symbolize.StandsFor symtab .symtab x q name ∧
      Symbolized.sym y = Spec.Symbolize.reported (shownBy cfg .unknown) path x q name := by
    generalize ho : Symbolized.sym y = out at hin
    cases hin with
    | symtab q name h => exact ⟨q, name, h, rfl⟩
    | dynsym q name _ h => exact absurd h.covers (hno q h.mem)
    | missing => cases ho
    | unknown => cases ho
  simp only [Spec.Symbolize.reported, shownBy, hdem, Spec.Symbolize.shownName, Symbolized.sym.injEq] at hy
  subst hy
  obtain ⟨found, hf, hall⟩ := (Inspect.C83_elf_partial cfg.tools w.toWorld hopen hp [name] (by simpa using hst.utf8)).2 s hr
  cases hall with
  | cons ha hrest =>
    cases hrest
    rename_i infos
    obtain ⟨infos', hnamed, halike⟩ := ha
    refine ⟨infos, hf, ?_⟩
    have hb : Spec.Inspect.Bears symtab.strs name q := ⟨⟨hst.supported, hst.defined⟩, hst.named⟩
    cases hnamed with
    | dynsym hno _ => exact absurd hb (hno q hst.mem)
    | symtab _ h =>
      obtain ⟨is, _, hm, hf⟩ := h
      obtain ⟨i, hi⟩ := List.mem_iff_getElem?.mp hst.mem
      obtain ⟨info', hi', q', hq', ht⟩ := (forall₂_exists hf).2 i ((hm i).mpr ⟨q, hi, hb⟩)
      rw [hi] at hq'
      cases hq'
      obtain ⟨info, hi2, hal⟩ := (forall₂_exists halike).1 info' hi'
      refine ⟨info, hi2, ?_, ?_, ?_, ?_⟩
      · rw [show info.name = info'.name from alike_name hal]
        exact Elf.nameAt_unique ht.name hst.named
      · rw [show info.addr = info'.addr from alike_addr hal]
        exact ht.addr
      · rw [show info.size = info'.size from alike_size hal, ht.size]
        simp only [Option.getD_some]
        split
        · assumption
        · rfl
      · rw [show info.addr = info'.addr from alike_addr hal, ht.addr]
        have := hst.covers.1
        simp only
        omega

/-- **C98** (Breakpad files, from names to addresses) Every address that an inspector reports for a name in a Breakpad file is
reported as the start of a function when it is symbolized with this file. -/
theorem C98_breakpad_files [DecidableEq M] (cfg : Settings M K) (w : World M) (v : Versions M)
    (maps : Nat → Except Err (List (Except Err Maps.Entry))) {path text : Bytes}
    (hopen : w.disk.opened path = .ok (.ok text)) (hc : HasContents w (v.breakpad path) text)
    {rs : List Breakpad.Record} (hrs : Spec.Breakpad.IsSymbolFile rs text) (hnamed : Spec.Symbolize.AllNamed rs)
    (hfit : ∀ addr, Spec.Symbolize.FitsAt rs addr)
    (s : Inspector M) (hr : Spec.Inspect.Reachable cfg.tools (Spec.Inspect.SameContents w.disk.contents) s) (name : Bytes) :
    ∃ infos, (s.lookup cfg.tools w.toWorld (.breakpad path) [name]).1 = .ok [infos] ∧
      ∀ info ∈ infos, ∃ out,
        symbolizeSingle (envAt cfg w v maps) (.breakpad path) (.fileOffset info.addr) = .ok out ∧ IsStart info.addr out := by
  obtain ⟨found, hf, hall⟩ := Inspect.C83_breakpad cfg.tools w.toWorld hopen hrs [name] s hr
  cases hall with
  | cons ha hrest =>
    cases hrest
    rename_i infos
    obtain ⟨listed, hsorted, hall⟩ := ha
    refine ⟨infos, hf, fun info hi => ?_⟩
    obtain ⟨f, hfl, ht⟩ := (forall₂_exists hall).1 info hi
    have hfm : f ∈ Spec.Breakpad.functions rs := by
      have h1 : f ∈ listed.filter (fun e => decide (pairKey e.addr e.size = pairKey f.addr f.size)) :=
        List.mem_filter.mpr ⟨hfl, decide_eq_true rfl⟩
      have h2 := hsorted.2 (pairKey f.addr f.size)
      simp only at h2
      rw [h2] at h1
      exact (List.mem_filter.mp (List.mem_filter.mp h1).1).1
    obtain ⟨out, ho, hin⟩ := Symbolize.C82_breakpad_total_partial cfg w v maps hc hrs info.addr (hfit _) hnamed
    refine ⟨out, ho, ?_⟩
    have haddr := ht.addr
    have hrec : Spec.Symbolize.RecordFor rs info.addr f := by
      refine ⟨hfm, ?_, by omega, fun e _ he => by omega⟩
      unfold Spec.Breakpad.Covers
      by_cases hz : f.size = 0
      · exact .inl ⟨haddr.symm, hz⟩
      · exact .inr ⟨by omega, by omega⟩
    cases hin with
    | func g ci fns hg _ =>
      have a := hg.2.2.1
      have b := hg.2.2.2 f hfm (le_of_eq haddr.symm)
      simp only at b
      exact ⟨_, rfl, by simp only; omega, by simp only; omega⟩
    | unknown hno _ => exact absurd ⟨f, hrec⟩ hno
    | missing he => rw [he] at hfm; cases hfm

/-! ### Concrete cases -/

theorem exRich_c : HasContents Symbolize.exRich ((Spec.Symbolize.present Symbolize.exRich).elf (ascii "/bin/c")) Elf.tinyElf :=
  ⟨0, by decide, rfl⟩

set_option maxRecDepth 20000 in
theorem exRich_opened : Symbolize.exRich.disk.opened (ascii "/bin/c") = .ok (.ok Elf.tinyElf) := by decide +kernel

/-- An inspector finds `f` in `/bin/c`, and its address is the start of a symbol. -/
example : ∃ infos, ((Inspector.new : Inspector Nat).lookup Symbolize.exSettings.tools Symbolize.exRich.toWorld
      (.elf (ascii "/bin/c") false) [ascii "f"]).1 = .ok [infos] ∧
    ∀ info ∈ infos, ∃ out, symbolizeSingle (envAt Symbolize.exSettings Symbolize.exRich
      (Spec.Symbolize.present Symbolize.exRich) Symbolize.exRich.maps) (.elf (ascii "/bin/c") false)
        (.virtOffset info.addr) = .ok out ∧ IsStart info.addr out := by
  obtain ⟨infos, h, k⟩ := C98_elf_files_partial Symbolize.exSettings Symbolize.exRich _ Symbolize.exRich.maps exRich_opened
    exRich_c Inspect.tinySymbols (Symbolize.tinyParts 4096 (by simp)) Symbolize.tinySound.1 Symbolize.tinySound.2
    Inspector.new .new (ascii "f") (by decide)
  exact ⟨infos, h, fun info hi => (k info hi (.inl ⟨Symbolize.tinySym, by decide, .inr (.inr (.inl rfl)),
    by simp [Spec.Elf.Defined, Symbolize.tinySym], Symbolize.tinyStands.named⟩)).1⟩

set_option maxRecDepth 20000 in
/-- There is such an address. -/
example : ((Inspector.new : Inspector Nat).lookup Symbolize.exSettings.tools Symbolize.exRich.toWorld
    (.elf (ascii "/bin/c") false) [ascii "f"]).1.map (List.map (List.map (fun i => (i.addr, i.size)))) =
      .ok [[(0x1000, some 0x10)]] := by
  decide +kernel

def exPlain : Settings Nat _root_.Unit := { Symbolize.exSettings with demangle := false }

set_option maxRecDepth 20000 in
theorem exPlain_answer : symbolizeSingle (envAt exPlain Symbolize.exRich (Spec.Symbolize.present Symbolize.exRich)
    Symbolize.exRich.maps) (.elf (ascii "/bin/c") false) (.virtOffset 0x1008) =
      .ok (.sym ⟨ascii "f", some (ascii "/bin/c"), 0x1000, 8, some 0x10, none, []⟩) := by
  decide +kernel

set_option maxRecDepth 20000 in
/-- In the other direction: 0x1008 is in `f`, and `f` is found at 0x1000. -/
example : ∃ infos, ((Inspector.new : Inspector Nat).lookup exPlain.tools Symbolize.exRich.toWorld
      (.elf (ascii "/bin/c") false) [ascii "f"]).1 = .ok [infos] ∧
      ∃ info ∈ infos, info.name = ascii "f" ∧ info.addr = 0x1000 ∧ info.size.getD 0 = 0x10 ∧ info.addr + 8 = 0x1008 := by
  have hp : Spec.Inspect.SymbolsOf exPlain.tools.codec (.mem 4096 Elf.tinyElf) Inspect.tinyShdrs Symbolize.tinySymtab
      ⟨[], []⟩ := Inspect.tinySymbols
  have he : ElfParts exPlain.tools.codec (.mem 4096 Elf.tinyElf) [Symbolize.tinyPhdr] Symbolize.tinySymtab ⟨[], []⟩ :=
    Symbolize.tinyParts 4096 (by simp)
  have := C98_elf_files_back_partial exPlain rfl Symbolize.exRich _ Symbolize.exRich.maps exRich_opened exRich_c
    hp he Inspector.new .new 0x1008 ⟨ascii "f", some (ascii "/bin/c"), 0x1000, 8, some 0x10, none, []⟩ exPlain_answer
    (fun s hs => by cases hs)
  simpa only [Option.getD_some] using this

set_option maxRecDepth 20000 in
/-- A Breakpad file. -/
example (name : Bytes) : ∃ infos, ((Inspector.new : Inspector Nat).lookup Symbolize.exSettings.tools
      Symbolize.exBreakpad.toWorld (.breakpad (ascii "/s.sym")) [name]).1 = .ok [infos] ∧
    ∀ info ∈ infos, ∃ out, symbolizeSingle (envAt Symbolize.exSettings Symbolize.exBreakpad
      (Spec.Symbolize.present Symbolize.exBreakpad) Symbolize.exBreakpad.maps) (.breakpad (ascii "/s.sym"))
        (.fileOffset info.addr) = .ok out ∧ IsStart info.addr out := by
  obtain ⟨rs, h1, h2, h3⟩ := Symbolize.sample_ok
  exact C98_breakpad_files Symbolize.exSettings Symbolize.exBreakpad (Spec.Symbolize.present Symbolize.exBreakpad)
    Symbolize.exBreakpad.maps (by decide +kernel) ⟨0, by decide, rfl⟩ h1 h2 h3 Inspector.new .new name

end Blazesym.TwoWay
