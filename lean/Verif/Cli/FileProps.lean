import Verif.Cli.Props
import Verif.Cli.FileSpec
import Verif.Session.DebugAnswerProps
import Verif.Session.KernelDebugProps

/-! Property theorems C81 (what the command line tool prints for addresses, by the contents of files). -/

set_option autoImplicit false

namespace Blazesym.Cli
open Blazesym.Util Blazesym.Spec Blazesym.Spec.Cli Blazesym.Spec.Symbolize
open Blazesym.Symbolize (Symbolized Input Source State Settings KernelCache World symbolize symbolizeSingle Folded Env)

variable {M : Type} [DecidableEq M]

/-- The settings the tool uses are the default ones. -/
theorem settings_default (p : Platform) (dirs : Option (List Bytes)) :
    DefaultSettings p dirs (settings p (dirs.getD Inspect.defaultDebugDirs) : Settings M (KernelCache M)) :=
  ⟨rfl, rfl, rfl, rfl, rfl, rfl, rfl, rfl, rfl, rfl, rfl⟩

/-- The answers of a new symbolizer are those without any cache. -/
def Answers (cfg : Settings M (KernelCache M)) (w : World M) (env : Env) (src : Source) : Prop :=
  (∀ input, ((State.new cfg).symbolize cfg w src input).1 = symbolize env src input) ∧
  ∀ input, ((State.new cfg).symbolizeSingle cfg w src input).1 = symbolizeSingle env src input

theorem answers_of_oneName {cfg : Settings M (KernelCache M)} (hd : cfg.processDispatch = none)
    (har : cfg.autoReload = true) {w : World M}
    (hlen : ∀ m data, w.disk.contents m = .ok (.ok data) → data.length < 2 ^ 63) {src : Source}
    (hk : ∀ ks, src ≠ .kernel ks) (h1 : OneName cfg w src) :
    Answers cfg w (envAt cfg w (present w) w.maps) src := by
  obtain ⟨k, hc, hf⟩ := h1
  have hb : DispatchByName cfg := by intro d hd'; rw [hd] at hd'; cases hd'
  rw [← hc] at hlen
  have hv : versions (State.new cfg) w = present w := by
    have hr : Reachable cfg (fun s w c => SameContents k.contents s w c ∧ NotCaching c) (State.new cfg) := .new
    have h3 := (Symbolize.uncached_unpinned hr).1.present
      ((Symbolize.loose_reachable (contents := k.contents) (.new : Reachable cfg _ (State.new cfg))).2.elf.trans har)
      w.disk.stat
    rw [Symbolize.C68_present har (contents := k.contents) .new w]
    simp only [versions, h3, present]
  have hm : Symbolize.mapsOf w (State.new cfg).vmas = w.maps := by
    funext pid
    rfl
  constructor
  · intro input
    exact (Symbolize.C68_fresh_partial hb har hlen .new w src hk input hc.symm hf).1
  · intro input
    rw [Symbolize.C68_single_partial hb hlen .new w src hk input ⟨hc.symm, by rw [hv, hm]; exact hf⟩, hv, hm]

/-- What is printed, by what a request without any cache is answered with. -/
theorem run_tells {p : Platform} {w : World M} {cmd : SymbolizeCmd} {src : Source} {dirs : Option (List Bytes)}
    {kind : Kind} (hask : Asks cmd src (kind.of cmd.addrs) dirs) {env : Env}
    (hans : Answers (settings p (dirs.getD Inspect.defaultDebugDirs)) w env src) {right : Nat → Symbolized → Prop}
    (hs : ∀ a ∈ cmd.addrs, ∀ out, symbolizeSingle env src (kind.of a) = .ok out → right a out)
    (hb : ∀ outs, symbolize env src (kind.of cmd.addrs) = .ok outs → List.Forall₂ right cmd.addrs outs)
    (ha : ∀ a ∈ cmd.addrs, a < 2 ^ 64) (hp : ∀ a ∈ cmd.addrs, ∀ out, right a out → PlainAnswer p.display out)
    (hr : (runSymbolize p w cmd).result = .ok ()) : Tells p.display right cmd.addrs (runSymbolize p w cmd).stdout := by
  by_cases hn : cmd.addrs.length = 1
  · obtain ⟨a, hl⟩ := List.length_eq_one_iff.mp hn
    obtain ⟨h1, h2⟩ := C77_symbolize_one p w cmd src _ dirs hask _ (settings_default p dirs) a hl
    have hkind : ((kind.of cmd.addrs).map fun _ => a) = kind.of a := by cases kind <;> rfl
    rw [hkind, hans.2] at h1 h2
    have hmem : a ∈ cmd.addrs := by rw [hl]; exact List.mem_singleton.mpr rfl
    cases h : symbolizeSingle env src (kind.of a) with
    | error e => rw [h1 e h] at hr; cases hr
    | ok out =>
      have hright := hs a hmem out h
      refine ⟨[out], by rw [hl]; exact .cons hright .nil, ?_⟩
      rw [(h2 out h (ha a hmem) (hp a hmem out hright)).2, hl]
      rfl
  · obtain ⟨h1, h2⟩ := C77_symbolize_several p w cmd src _ dirs hask _ (settings_default p dirs) hn
    rw [hans.1] at h1 h2
    cases h : symbolize env src (kind.of cmd.addrs) with
    | error e => rw [h1 e h] at hr; cases hr
    | ok outs =>
      have hright := hb outs h
      refine ⟨outs, hright, (h2 outs h ha ?_).2.2⟩
      intro o ho
      obtain ⟨i, hi, rfl⟩ := List.getElem_of_mem ho
      have hlen := hright.length_eq
      exact hp _ (List.getElem_mem (by omega)) _ (List.forall₂_iff_get.mp hright |>.2 i (by omega) hi)

/-- The tool succeeds if the requests do. -/
theorem run_ok {p : Platform} {w : World M} {cmd : SymbolizeCmd} {src : Source} {dirs : Option (List Bytes)}
    {kind : Kind} (hask : Asks cmd src (kind.of cmd.addrs) dirs) {env : Env}
    (hans : Answers (settings p (dirs.getD Inspect.defaultDebugDirs)) w env src)
    (hs : ∀ a ∈ cmd.addrs, ∃ out, symbolizeSingle env src (kind.of a) = .ok out)
    (hb : ∃ outs, symbolize env src (kind.of cmd.addrs) = .ok outs) : (runSymbolize p w cmd).result = .ok () := by
  obtain ⟨g1, g2, g3⟩ := asks_source hask
  have hset : (settings p (dirsOf cmd) : Settings M (KernelCache M)) = settings p (dirs.getD Inspect.defaultDebugDirs) := by
    rw [g2]
  unfold runSymbolize symbolizeAll
  simp only
  rw [g1, hset]
  simp only
  split
  · rename_i e heq
    exfalso
    split at heq
    · rename_i a hl
      obtain ⟨out, ho⟩ := hs a (by rw [hl]; exact List.mem_singleton.mpr rfl)
      have hkind : ((kind.of cmd.addrs).map fun _ => a) = kind.of a := by cases kind <;> rfl
      rw [hkind, hans.2, ho] at heq
      cases heq
    · obtain ⟨outs, ho⟩ := hb
      rw [hans.1, ho] at heq
      cases heq
  · rfl

/-- An answer from symbol tables can be printed if the names of the symbols can. -/
theorem plain_inElf {shown : Bytes → Bytes} {display : Bytes → Bytes} {module : Bytes} {symtab dynsym : Elf.SymTab}
    (h1 : PlainNames shown symtab) (h2 : PlainNames shown dynsym) {addr : Nat} (ha : addr < 2 ^ 64) {out : Symbolized}
    (h : InElf shown module symtab dynsym addr out) : PlainAnswer display out := by
  have key : ∀ (t : Elf.SymTab) (table : Elf.Table) (s : Elf.Sym) (name : Bytes), PlainNames shown t →
      StandsFor t table addr s name → PlainAnswer display (reported shown module addr s name) := by
    intro t table s name hp hs
    have := hs.covers.1
    refine ⟨hp s hs.mem name hs.named, ?_, ?_, ?_, ?_⟩
    · show s.value < 2 ^ 64
      omega
    · show addr - s.value < 2 ^ 64
      omega
    · intro c hc
      cases hc
    · intro f hf
      cases hf
  cases h with
  | symtab s name hs => exact key _ _ s name h1 hs
  | dynsym s name _ hs => exact key _ _ s name h2 hs
  | missing => trivial
  | unknown => trivial

/-- So can one for an offset. -/
theorem plain_atOffset {phdrs : List Elf.Phdr} (hfit : Spec.Elf.SegmentsFit phdrs) {display : Bytes → Bytes}
    {at_ : Nat → Symbolized → Prop} (h : ∀ a out, a < 2 ^ 64 → at_ a out → PlainAnswer display out) {off : Nat}
    {out : Symbolized} (ho : AtOffset phdrs at_ off out) : PlainAnswer display out := by
  cases ho with
  | outside => trivial
  | inside q _ hq hat =>
    obtain ⟨pre, post, rfl, hin, _⟩ := hq
    have := hfit q (by simp) hin.1
    have := hin.2
    exact h _ out (by omega) hat

/-- A single file has one name. -/
theorem oneName_elf (cfg : Settings M (KernelCache M)) (w : World M) (path : Bytes) : OneName cfg w (.elf path false) := by
  refine ⟨⟨w.disk.contents, fun _ => path, fun _ => .error .unsupported, fun _ _ _ _ => .error .unsupported,
    .error .unsupported⟩, rfl, ?_⟩
  intro l hl
  cases hl
  intro m hm
  exact ⟨rfl, fun h => by cases h⟩

/-- **C81** (ELF files without debug information; partial: see `Absent`) The tool prints, for every address, the
symbol of the file that stands for it, or that there is none. -/
theorem C81_elf_partial (p : Platform) (w : World M) (path : Bytes) (dirs : Option (List Bytes)) (addrs : List Nat)
    (hlen : ∀ m data, w.disk.contents m = .ok (.ok data) → data.length < 2 ^ 63) {data : Bytes}
    (hc : HasContents w (w.disk.stat path) data) {phdrs : List Elf.Phdr} {symtab dynsym : Elf.SymTab}
    (hp : ElfParts p.tools.codec (.mem 4096 data) phdrs symtab dynsym) (h1 : Sound symtab) (h2 : Sound dynsym)
    (n1 : PlainNames (Symbolize.shownName p.demangler true .unknown) symtab)
    (n2 : PlainNames (Symbolize.shownName p.demangler true .unknown) dynsym) (ha : ∀ a ∈ addrs, a < 2 ^ 64) :
    (runSymbolize p w (.elf path dirs true addrs)).result = .ok () ∧
    Tells p.display (InElf (Symbolize.shownName p.demangler true .unknown) path symtab dynsym) addrs
      (runSymbolize p w (.elf path dirs true addrs)).stdout := by
  have hask : Asks (.elf path dirs true addrs) (.elf path false) (Kind.virtOffset.of addrs) dirs :=
    .elf path dirs true false addrs (by decide)
  let cfg : Settings M (KernelCache M) := settings p (dirs.getD Inspect.defaultDebugDirs)
  have hone := oneName_elf cfg w path
  have hans := answers_of_oneName (cfg := cfg) rfl rfl hlen (by intro ks h; cases h) hone
  have hsingle : ∀ a, ∃ out, symbolizeSingle (envAt cfg w (present w) w.maps) (.elf path false) (Kind.virtOffset.of a) =
      .ok out := fun a => (Symbolize.C72_total cfg w (present w) w.maps hc hp h1 h2 a).1
  have hright : ∀ a out, symbolizeSingle (envAt cfg w (present w) w.maps) (.elf path false) (Kind.virtOffset.of a) =
      .ok out → InElf (Symbolize.shownName p.demangler true .unknown) path symtab dynsym a out :=
    fun a out h => (Symbolize.C72_elf_partial cfg w (present w) w.maps hc hp a out).1 h
  have hbatch : ∃ outs, symbolize (envAt cfg w (present w) w.maps) (.elf path false) (Kind.virtOffset.of addrs) =
      .ok outs := by
    obtain ⟨out, ho⟩ := hsingle 0
    refine Symbolize.C43_batch_ok _ _ .virtOffset addrs 0 out (by intro p h; cases h) ho ?_
    intro b _ hb
    obtain ⟨out, ho⟩ := hsingle b
    rw [ho] at hb
    cases hb
  have hok := run_ok (cmd := .elf path dirs true addrs) hask hans (fun a _ => hsingle a) hbatch
  refine ⟨hok, run_tells (cmd := .elf path dirs true addrs) hask hans (fun a _ out h => hright a out h) ?_ ha
    (fun a hm out h => plain_inElf n1 n2 (ha a hm) h) hok⟩
  intro outs ho
  refine (Symbolize.C43_batch _ _ .virtOffset addrs outs (by intro p h; cases h) ho).imp ?_
  rintro a o (h | ⟨⟨e, _, h⟩, _⟩)
  · exact hright a o h
  · obtain ⟨out, ho⟩ := hsingle a
    rw [ho] at h
    cases h

/-- **C81** (processes without debug information; partial: see `Absent`, and processes with no mapping at all) The
tool prints, for every address that is mapped from an ELF file, the symbol of the file that stands for the place
it is mapped from, and that there is none for addresses that are not mapped. -/
theorem C81_process_partial (p : Platform) (w : World M) (pid : Nat) (dirs : Option (List Bytes)) (noMapFiles : Bool)
    (addrs : List Nat) (hlen : ∀ m data, w.disk.contents m = .ok (.ok data) → data.length < 2 ^ 63)
    (hone : OneName (settings p (dirs.getD Inspect.defaultDebugDirs)) w (.process ⟨pid, false, true, !noMapFiles, true⟩))
    {es : List Maps.Entry} (hm : w.maps pid = .ok (es.map .ok)) (hl : Blazesym.Spec.Normalize.Listing es) (hne : es ≠ [])
    (hall : ∀ a ∈ addrs, (∀ e ∈ es, ¬ (e.start ≤ a ∧ a < e.stop)) ∨ ∃ off name phdrs symtab dynsym,
      MappedElf p.tools.codec w ⟨pid, false, true, !noMapFiles, true⟩ a off name phdrs symtab dynsym ∧
        Sound symtab ∧ Sound dynsym ∧ PlainNames (Symbolize.shownName p.demangler true .unknown) symtab ∧
          PlainNames (Symbolize.shownName p.demangler true .unknown) dynsym)
    (ha : ∀ a ∈ addrs, a < 2 ^ 64) :
    (runSymbolize p w (.process pid dirs true addrs noMapFiles)).result = .ok () ∧
    Tells p.display (InProcess p.tools.codec (Symbolize.shownName p.demangler true .unknown) w
        ⟨pid, false, true, !noMapFiles, true⟩) addrs
      (runSymbolize p w (.process pid dirs true addrs noMapFiles)).stdout := by
  have hask : Asks (.process pid dirs true addrs noMapFiles) (.process ⟨pid, false, true, !noMapFiles, true⟩)
      (Kind.absAddr.of addrs) dirs := .process pid dirs true false noMapFiles (!noMapFiles) addrs (by decide) (by simp)
  let src : Symbolize.ProcessSource := ⟨pid, false, true, !noMapFiles, true⟩
  let cfg : Settings M (KernelCache M) := settings p (dirs.getD Inspect.defaultDebugDirs)
  let env := envAt cfg w (present w) w.maps
  have hans := answers_of_oneName (cfg := cfg) rfl rfl hlen (by intro ks h; cases h) hone
  have hnd : ∀ e, NoDispatch cfg e := by intro e d hd; cases hd
  have hby : ByName env := by intro d hd; cases hd
  have key : ∀ a ∈ addrs, (∃ out, symbolizeSingle env (.process src) (.absAddr a) = .ok out) ∧
      ∀ out, symbolizeSingle env (.process src) (.absAddr a) = .ok out →
        InProcess p.tools.codec (Symbolize.shownName p.demangler true .unknown) w src a out ∧
          PlainAnswer p.display out := by
    intro a hmem
    rcases hall a hmem with hno | ⟨off, name, phdrs, symtab, dynsym, hmapped, s1, s2, n1, n2⟩
    · have h := Symbolize.C44_unmapped env src es a hm hl hne hno
      refine ⟨⟨_, h⟩, fun out ho => ?_⟩
      rw [h] at ho
      cases ho
      exact ⟨.unmapped es hm hno, trivial⟩
    · have hmapped' := hmapped
      obtain ⟨e, q, data, h1, h2, h3, rfl, h5, h6⟩ := hmapped
      refine ⟨(Symbolize.C72_total cfg w (present w) w.maps h5 h6 s1 s2 a).2.2 src e off q rfl h1 (hnd e) h2 h3 rfl,
        fun out ho => ?_⟩
      have hat := Symbolize.C72_process_partial cfg w (present w) w.maps src rfl h1 (hnd e) h2 h3 h5 h6 ho
      exact ⟨.mapped _ _ _ _ _ _ hmapped' hat,
        plain_atOffset h6.fits (fun x o hx h => plain_inElf n1 n2 hx h) hat⟩
  have hbatch : ∃ outs, symbolize env (.process src) (Kind.absAddr.of addrs) = .ok outs := by
    cases h : symbolize env (.process src) (Kind.absAddr.of addrs) with
    | ok outs => exact ⟨outs, rfl⟩
    | error e =>
      obtain ⟨a, hmem, h'⟩ := (Symbolize.C43_process_batch_error env src es addrs hby hm hl hne).1 e h
      obtain ⟨out, ho⟩ := (key a hmem).1
      rw [ho] at h'
      cases h'
  have hok := run_ok (cmd := .process pid dirs true addrs noMapFiles) hask hans (fun a hmem => (key a hmem).1) hbatch
  have ht := run_tells (cmd := .process pid dirs true addrs noMapFiles) (env := env) hask hans
    (right := fun a out => InProcess p.tools.codec (Symbolize.shownName p.demangler true .unknown) w src a out ∧
      PlainAnswer p.display out) (fun a hmem out h => (key a hmem).2 out h) ?_ ha (fun a hmem out h => h.2) hok
  · obtain ⟨outs, h1, h2⟩ := ht
    exact ⟨hok, outs, h1.imp (fun _ _ h => h.1), h2⟩
  · intro outs ho
    have := Symbolize.C43_process_batch_partial env src es addrs outs hby hm hl hne ho
    rw [List.forall₂_iff_get] at this ⊢
    refine ⟨this.1, fun i hi hi' => (key _ (List.get_mem _ _)).2 _ (this.2 i hi hi')⟩

/-- Answers of batches are those of single requests, or tell that there was an error. -/
theorem batch_right {env : Env} {src : Source} (hsrc : ∀ q, src ≠ .process q) {kind : Kind} {addrs : List Nat}
    {right : Nat → Symbolized → Prop}
    (hs : ∀ a ∈ addrs, ∀ out, symbolizeSingle env src (kind.of a) = .ok out → right a out) (outs : List Symbolized)
    (h : symbolize env src (kind.of addrs) = .ok outs) :
    List.Forall₂ (fun a out => right a out ∨ out = .unknown .ignoredError) addrs outs := by
  have := Symbolize.C43_batch env src kind addrs outs hsrc h
  rw [List.forall₂_iff_get] at this ⊢
  refine ⟨this.1, fun i hi hi' => ?_⟩
  rcases this.2 i hi hi' with h' | ⟨_, h'⟩
  · exact .inl (hs _ (List.get_mem _ _) _ h')
  · exact .inr h'

/-- **C81** (ELF files; partial: functions that are not nested, files that are used under one name, see `Absent`, and
C66 says what debug information `d` belongs to the file) The tool prints, for every address, a function the debug
information has there, with the source location and the inlined functions if line programs are orderly, or else
the symbol of the file that stands for it, or that there is none (also if there was an error for this address). -/
theorem C81_elf_debug_partial (p : Platform) (w : World M) (path : Bytes) (dirs : Option (List Bytes)) (addrs : List Nat)
    (hlen : ∀ m data, w.disk.contents m = .ok (.ok data) → data.length < 2 ^ 63)
    (hone : OneName (settings p (dirs.getD Inspect.defaultDebugDirs)) w (.elf path true)) {data : Bytes}
    (hc : HasContents w (w.disk.stat path) data) {d : Dwarf.DebugData}
    (hd : (Dwarf.fromParser p.tools w.files (dirs.getD Inspect.defaultDebugDirs) ⟨some path, .mem 4096 data⟩).eval
      (fun q => elfAt w w.disk.stat q q) = .ok d) {s : Dwarf.Sections} {file : Bytes} {symtab dynsym : Elf.SymTab}
    (hp : DebugParts p.tools path (.mem 4096 data) d s file symtab dynsym)
    (hplain : ∀ a ∈ addrs, ∀ out,
      ((State.new (settings p (dirs.getD Inspect.defaultDebugDirs))).symbolizeSingle
        (settings p (dirs.getD Inspect.defaultDebugDirs)) w (.elf path true) (.virtOffset a)).1 = .ok out →
      PlainAnswer p.display out)
    (ha : ∀ a ∈ addrs, a + 1 < 2 ^ 64) (hr : (runSymbolize p w (.elf path dirs false addrs)).result = .ok ()) :
    Tells p.display (fun a out => InElfDebug (Symbolize.shownName p.demangler true) .codeInfoAndInlined path d.units.units
        s file symtab dynsym a out ∨ out = .unknown .ignoredError) addrs
      (runSymbolize p w (.elf path dirs false addrs)).stdout := by
  have hask : Asks (.elf path dirs false addrs) (.elf path true) (Kind.virtOffset.of addrs) dirs :=
    .elf path dirs false true addrs (by decide)
  let cfg : Settings M (KernelCache M) := settings p (dirs.getD Inspect.defaultDebugDirs)
  have hans := answers_of_oneName (cfg := cfg) rfl rfl hlen (by intro ks h; cases h) hone
  have key : ∀ a ∈ addrs, ∀ out, symbolizeSingle (envAt cfg w (present w) w.maps) (.elf path true) (Kind.virtOffset.of a) =
      .ok out → InElfDebug (Symbolize.shownName p.demangler true) .codeInfoAndInlined path d.units.units s file symtab
        dynsym a out ∧ PlainAnswer p.display out := by
    intro a hmem out h
    refine ⟨?_, hplain a hmem out (by rw [hans.2]; exact h)⟩
    exact Symbolize.in_elf_debug (env := envAt cfg w (present w) w.maps) hp (ha a hmem)
      ((Symbolize.C42_elf_virt_offset _ path true _ a _ (Symbolize.envAt_debug hc hd)).mp h)
  obtain ⟨outs, h1, h2⟩ := run_tells (cmd := .elf path dirs false addrs) hask hans
    (fun a hmem out h => .inl (key a hmem out h)) (batch_right (by intro q h; cases h) key)
    (fun a hmem => Nat.lt_of_succ_lt (ha a hmem)) (by
      rintro a _ out (h | rfl)
      · exact h.2
      · trivial) hr
  exact ⟨outs, h1.imp fun a o h => h.imp (fun h => h.1) id, h2⟩

/-- **C81** (the kernel; partial: files that are used under one name, and see C73) The tool prints, for every address
of the kernel, what the files of the system say about it, or that there is nothing (also if there was an error
for this address). -/
theorem C81_kernel_partial (p : Platform) (w : World M) (kallsyms vmlinux : Option Bytes) (addrs : List Nat)
    (src : Symbolize.KernelSource) (hk : FileArg kallsyms src.kallsyms) (hv : FileArg vmlinux src.vmlinux)
    (hkaslr : src.kaslr = none) (hds : src.debugSyms = true) {k : Known M} (hw : w.disk.contents = k.contents)
    (hf : KernelFits (settings p Inspect.defaultDebugDirs) k w (State.new (settings p Inspect.defaultDebugDirs)) src)
    (ht : TextKallsyms w src) (hd : ∀ mods, LoadedModules w mods → Spec.Kernel.Disjoint mods)
    (hplain : ∀ a ∈ addrs, ∀ out, ((State.new (settings p Inspect.defaultDebugDirs)).symbolizeSingle
        (settings p Inspect.defaultDebugDirs) w (.kernel src) (.absAddr a)).1 = .ok out → PlainAnswer p.display out)
    (ha : ∀ a ∈ addrs, a < 2 ^ 64) (hr : (runSymbolize p w (.kernel kallsyms vmlinux addrs)).result = .ok ()) :
    Tells p.display (fun a out => KernelDebugAnswer (settings p Inspect.defaultDebugDirs : Settings M (KernelCache M))
        (Symbolize.shownName p.demangler true) .codeInfoAndInlined w src a out ∨ out = .unknown .ignoredError) addrs
      (runSymbolize p w (.kernel kallsyms vmlinux addrs)).stdout := by
  obtain ⟨sk, sv, so, sd⟩ := src
  simp only at hk hv hkaslr hds
  subst hkaslr hds
  have hask : Asks (.kernel kallsyms vmlinux addrs) (.kernel ⟨sk, sv, none, true⟩) (Kind.absAddr.of addrs) none :=
    .kernel kallsyms vmlinux sk sv addrs hk hv
  let cfg : Settings M (KernelCache M) := settings p Inspect.defaultDebugDirs
  have hst : Symbolize.Standard cfg := ⟨rfl, rfl⟩
  have hans : Answers cfg w (envNow cfg w (State.new cfg)) (.kernel ⟨sk, sv, none, true⟩) := by
    obtain ⟨h1, h2⟩ := Symbolize.C70_debug_partial hst (.new : Reachable cfg (KernelOrderly cfg k) _) w hw _ hf ht
    exact ⟨h1, h2⟩
  have key : ∀ a ∈ addrs, ∀ out, symbolizeSingle (envNow cfg w (State.new cfg)) (.kernel ⟨sk, sv, none, true⟩)
      (Kind.absAddr.of a) = .ok out → KernelDebugAnswer cfg (Symbolize.shownName p.demangler true) .codeInfoAndInlined w
        ⟨sk, sv, none, true⟩ a out ∧ PlainAnswer p.display out := by
    intro a hmem out h
    exact ⟨Symbolize.C73_debug_partial cfg w (State.new cfg) _ rfl hd a out h,
      hplain a hmem out (by rw [hans.2]; exact h)⟩
  obtain ⟨outs, h1, h2⟩ := run_tells (cmd := .kernel kallsyms vmlinux addrs) (dirs := none) hask hans
    (fun a hmem out h => .inl (key a hmem out h)) (batch_right (by intro q h; cases h) key) ha (by
      rintro a _ out (h | rfl)
      · exact h.2
      · trivial) hr
  exact ⟨outs, h1.imp fun a o h => h.imp (fun h => h.1) id, h2⟩

/-- **C81** (errors) If the file is not there, cannot be read or is no ELF file, nothing is printed and the tool fails
with that error. -/
theorem C81_no_file (p : Platform) (w : World M) (path : Bytes) (dirs : Option (List Bytes)) (addrs : List Nat)
    (hlen : ∀ m data, w.disk.contents m = .ok (.ok data) → data.length < 2 ^ 63) (e : Err)
    (hc : w.disk.stat path = .error e ∨ (∃ m, w.disk.stat path = .ok m ∧ w.disk.contents m = .error e) ∨
      (∃ m, w.disk.stat path = .ok m ∧ w.disk.contents m = .ok (.error e))) :
    runSymbolize p w (.elf path dirs true addrs) = ⟨[], .error e⟩ := by
  have hask : Asks (.elf path dirs true addrs) (.elf path false) (Kind.virtOffset.of addrs) dirs :=
    .elf path dirs true false addrs (by decide)
  let cfg : Settings M (KernelCache M) := settings p (dirs.getD Inspect.defaultDebugDirs)
  have hans := answers_of_oneName (cfg := cfg) rfl rfl hlen (by intro ks h; cases h) (oneName_elf cfg w path)
  have he : (envAt cfg w (present w) w.maps).elf path path false = .error e := by
    simp only [envAt, Bool.false_eq_true, if_false, elfAt, present, fileOf]
    rcases hc with h | ⟨m, h1, h2⟩ | ⟨m, h1, h2⟩
    · rw [h]; rfl
    · rw [h1]; simp only [ofVersion, h2]
    · rw [h1]; simp only [ofVersion, h2, Dwarf.elfParse]
  by_cases hn : addrs.length = 1
  · obtain ⟨a, rfl⟩ := List.length_eq_one_iff.mp hn
    refine (C77_symbolize_one p w _ _ _ dirs hask _ (settings_default p dirs) a rfl).1 e ?_
    rw [hans.2]
    simp [symbolizeSingle, Input.map, Kind.of, Symbolize.symbolizeImpl, he]
  · refine (C77_symbolize_several p w _ _ _ dirs hask _ (settings_default p dirs) hn).1 e ?_
    rw [hans.1]
    simp [symbolize, Symbolize.symbolizeImpl, he]

/-! ### Examples -/

theorem exRich_short : ∀ m data, Symbolize.exRich.disk.contents m = .ok (.ok data) → data.length < 2 ^ 63 := by
  intro m data h
  simp only [Symbolize.exRich] at h
  split at h
  · cases h; decide +kernel
  · split at h
    · cases h; decide +kernel
    · split at h
      · cases h; decide +kernel
      · cases h

/-- No name is changed, and names that have no newline and no `@` are plain. -/
theorem tinyPlain : PlainNames (Symbolize.shownName exPlatform.demangler true .unknown) Symbolize.tinySymtab ∧
    PlainNames (Symbolize.shownName exPlatform.demangler true .unknown) ⟨[], []⟩ := by
  constructor
  · intro s hs name hn
    obtain ⟨rest, h1, _⟩ := hn
    have key : ∀ x ∈ name, x ∈ ([0, 102, 0] : Bytes) := by
      intro x hx
      refine List.mem_of_mem_drop (i := s.name) ?_
      show x ∈ Symbolize.tinySymtab.strs.drop s.name
      rw [h1]
      exact List.mem_append_left _ hx
    have hname : Symbolize.shownName exPlatform.demangler true .unknown name = name := rfl
    rw [hname]
    constructor
    · intro h
      exact absurd (key 10 h) (by decide)
    · intro h
      exact absurd (key 64 (h.subset (by decide))) (by decide)
  · intro s hs
    cases hs

/-- What the theorem says about a file: the symbol is reported for an address in it, nothing for another one. -/
example : (runSymbolize exPlatform Symbolize.exRich (.elf (ascii "/bin/c") none true [0x1008, 0x5000])).result = .ok () ∧
    Tells id (InElf (Symbolize.shownName exPlatform.demangler true .unknown) (ascii "/bin/c") Symbolize.tinySymtab ⟨[], []⟩)
      [0x1008, 0x5000] (runSymbolize exPlatform Symbolize.exRich (.elf (ascii "/bin/c") none true [0x1008, 0x5000])).stdout :=
  C81_elf_partial exPlatform Symbolize.exRich _ none _ exRich_short ⟨0, by decide, rfl⟩
    (Symbolize.tinyParts 4096 (by simp)) Symbolize.tinySound.1 Symbolize.tinySound.2 tinyPlain.1 tinyPlain.2 (by decide)

/-- In the example every file has one name. -/
theorem exRich_oneName : OneName (settings exPlatform Inspect.defaultDebugDirs) Symbolize.exRich
    (.process ⟨7, false, true, false, true⟩) := by
  let cfg : Settings Nat (KernelCache Nat) := settings exPlatform Inspect.defaultDebugDirs
  refine ⟨⟨Symbolize.exRich.disk.contents, fun m => if m = 0 then ascii "/bin/c" else ascii "/bin/z.apk",
    fun _ => .error .unsupported,
    fun _ => Symbolize.memberResolver cfg Symbolize.exRich (ascii "/bin/z.apk") (ascii "/bin/z.apk") false,
    Symbolize.createVdsoParser Symbolize.exRich 7 0x7f0000 0x7f1000⟩, rfl, ?_⟩
  intro l hl
  cases hl with
  | process _ items e _ h1 h2 h3 =>
    rw [show Symbolize.exRich.maps 7 = _ from Symbolize.exRich_maps] at h1
    cases h1
    obtain ⟨e', he, h⟩ := List.mem_map.mp h2
    cases h
    simp only [Symbolize.exEntries, List.mem_cons, List.not_mem_nil, or_false] at he
    rcases he with rfl | rfl | rfl | rfl
    · cases h3 with
      | dispatch name hn => trivial
      | apk q hq hx => cases hq; exact absurd hx (by decide)
      | elf q hq =>
        cases hq
        intro m hm
        have : m = 0 := by
          have h0 : (present Symbolize.exRich).elf (ascii "/bin/c") = .ok 0 := by decide
          rw [show (if false = true then ascii "/proc/7/map_files/400000-401000" else ascii "/bin/c") = ascii "/bin/c" from rfl, h0] at hm
          cases hm
          rfl
        subst this
        exact ⟨rfl, fun h => by cases h⟩
      | vdso hn => cases hn
      | perfMap hn => cases hn
    · cases h3 with
      | dispatch name hn => trivial
      | apk q hq hx => cases hq
      | elf q hq => cases hq
      | vdso hn => cases hn
      | perfMap hn => trivial
    · cases h3 with
      | dispatch name hn => trivial
      | apk q hq hx =>
        cases hq
        intro m data _ _ before e _
        rfl
      | elf q hq =>
        cases hq
        intro m hm
        have : m = 1 := by
          have h0 : (present Symbolize.exRich).elf (ascii "/bin/z.apk") = .ok 1 := by decide
          rw [show (if false = true then ascii "/proc/7/map_files/600000-601000" else ascii "/bin/z.apk") =
            ascii "/bin/z.apk" from rfl, h0] at hm
          cases hm
          rfl
        subst this
        exact ⟨rfl, fun h => by cases h⟩
      | vdso hn => cases hn
      | perfMap hn => cases hn
    · cases h3 with
      | dispatch name hn => trivial
      | apk q hq hx => cases hq
      | elf q hq => cases hq
      | vdso hn => rfl
      | perfMap hn => cases hn

/-- What the theorem says about a process: an address that is mapped and one that is not. -/
example : (runSymbolize exPlatform Symbolize.exRich (.process 7 none true [0x900000, 0x400008] true)).result = .ok () ∧
    Tells id (InProcess exPlatform.tools.codec (Symbolize.shownName exPlatform.demangler true .unknown) Symbolize.exRich
        ⟨7, false, true, false, true⟩) [0x900000, 0x400008]
      (runSymbolize exPlatform Symbolize.exRich (.process 7 none true [0x900000, 0x400008] true)).stdout := by
  refine C81_process_partial exPlatform Symbolize.exRich 7 none true _ exRich_short exRich_oneName
    Symbolize.exRich_maps Symbolize.exEntries_listing (by decide) ?_ (by decide)
  intro a hm
  simp only [List.mem_cons, List.not_mem_nil, or_false] at hm
  rcases hm with rfl | rfl
  · exact .inl (by decide)
  · obtain ⟨e, h1, h2⟩ := Symbolize.exMapped (0, 0x400008, 8) (by decide)
    cases h1
    exact .inr ⟨8, _, _, _, _, ⟨_, _, _, h2, rfl, by unfold IsArchive; decide, rfl, ⟨0, by decide, rfl⟩,
      Symbolize.tinyParts 4096 (by simp)⟩, Symbolize.tinySound.1, Symbolize.tinySound.2, tinyPlain.1, tinyPlain.2⟩

/-- A file that refers to no other file, and has no package of debug information beside it, has one name. -/
theorem oneName_elf_debug {cfg : Settings M (KernelCache M)} {w : World M} {path data : Bytes}
    (hc : HasContents w (w.disk.stat path) data) (hlink : Elf.readDebugLink cfg.tools.codec (.mem 4096 data) = .ok none)
    (hdwp : w.disk.stat (path ++ ascii ".dwp") = .error .notFound) : OneName cfg w (.elf path true) := by
  obtain ⟨m, h1, h2⟩ := hc
  let u : Universe Bytes M (Except Err Bytes) Dwarf.ElfParser Dwarf.DebugData :=
    ⟨w.disk.contents, fun _ => path, Dwarf.elfParse, fun _ =>
      (Dwarf.fromParser cfg.tools w.files cfg.debugDirs ⟨some path, .mem 4096 data⟩).eval fun _ => .error .notFound⟩
  refine ⟨⟨w.disk.contents, fun _ => path, u.debug, fun _ _ _ _ => .error .unsupported, .error .unsupported⟩, rfl, ?_⟩
  intro l hl
  cases hl
  intro m' hm'
  have hm'' : w.disk.stat path = .ok m' := hm'
  rw [h1] at hm''
  cases hm''
  refine ⟨rfl, fun _ f pr hf hp => ?_⟩
  have hf' : w.disk.contents m = .ok f := hf
  rw [h2] at hf'
  cases hf'
  cases hp
  show (Dwarf.fromParser cfg.tools w.files cfg.debugDirs ⟨some path, .mem 4096 data⟩).eval (u.lookup w.disk.stat) =
    (Dwarf.fromParser cfg.tools w.files cfg.debugDirs ⟨some path, .mem 4096 data⟩).eval (fun _ => .error .notFound) ∧
    ∀ q ∈ (Dwarf.fromParser cfg.tools w.files cfg.debugDirs ⟨some path, .mem 4096 data⟩).asked (u.lookup w.disk.stat),
      ∀ m', w.disk.stat q = .ok m' → m' ≠ m ∧ path = q
  have hb : Dwarf.fromParser cfg.tools w.files cfg.debugDirs ⟨some path, .mem 4096 data⟩ =
      Dwarf.andThen (Dwarf.findDwp ⟨some path, .mem 4096 data⟩) fun dwp =>
        match cfg.tools.load (.mem 4096 data) (dwp.map Dwarf.ElfParser.image) with
        | .error e => .done (.error e)
        | .ok units => .done (.ok ⟨units, none⟩) := by
    unfold Dwarf.fromParser Dwarf.derefDebugLink
    rw [hlink]
    rfl
  have l2 : u.lookup w.disk.stat (path ++ ascii ".dwp") = .error .notFound := by
    unfold Universe.lookup; rw [hdwp]; rfl
  have h3 : ∀ (g : Option Dwarf.ElfParser → Cache.Prog Bytes Dwarf.ElfParser Dwarf.DebugData)
      (look : Bytes → Except Err Dwarf.ElfParser), look (path ++ ascii ".dwp") = .error .notFound →
      (Dwarf.andThen (Dwarf.findDwp ⟨some path, .mem 4096 data⟩) g).eval look = (g none).eval look ∧
      (Dwarf.andThen (Dwarf.findDwp ⟨some path, .mem 4096 data⟩) g).asked look =
        (path ++ ascii ".dwp") :: (g none).asked look := by
    intro g look hlook
    constructor
    · simp only [Dwarf.andThen, Cache.Prog.eval, Dwarf.findDwp, hlook]
    · simp only [Dwarf.andThen, Cache.Prog.asked, Dwarf.findDwp, hlook]
  rw [hb, (h3 _ _ l2).1, (h3 _ _ l2).2, (h3 _ _ rfl).1]
  constructor
  · cases hl : cfg.tools.load (.mem 4096 data) none <;> simp [hl, Cache.Prog.eval]
  · intro q hq m'' hm''
    rcases List.mem_cons.mp hq with rfl | hq
    · rw [hdwp] at hm''; cases hm''
    · cases hl : cfg.tools.load (.mem 4096 data) none <;> simp [hl, Cache.Prog.asked] at hq

/-- What the libraries do, if every file has the debug information of `exFile`. -/
def exDebugPlatform : Platform := ⟨Symbolize.exDebugTools, ⟨fun _ => none, fun _ => none⟩, id⟩

set_option maxRecDepth 20000 in
/-- With debug information the tool succeeds. -/
example : (runSymbolize exDebugPlatform Symbolize.exRich (.elf (ascii "/bin/c") none false [0x1008, 0x5000])).result = .ok () := by
  decide +kernel

set_option maxRecDepth 20000 in
example : OneName (settings exDebugPlatform Inspect.defaultDebugDirs) Symbolize.exRich (.elf (ascii "/bin/c") true) :=
  oneName_elf_debug (data := Elf.tinyElf) ⟨0, by decide, rfl⟩ (by
    show Elf.readDebugLink Elf.noCodec (.mem 4096 Elf.tinyElf) = _
    decide +kernel) (by decide)

end Blazesym.Cli
