import Verif.Listing.Spec
import Verif.TwoWay.FileProps

/-! # C99: listing all symbols and looking up names give the same symbols -/

set_option autoImplicit false

namespace Blazesym.Listing
open Blazesym.Elf Blazesym.Spec Blazesym.Spec.Elf Blazesym.Spec.Listing

theorem feed_collect {X : Type} (l xs : List X) : feed collect l xs = (l ++ xs, false) := by
  induction xs generalizing l with
  | nil => simp [feed]
  | cons x xs ih =>
    unfold feed
    simp only [collect]
    rw [ih]
    simp

/-- What describes a symbol is determined by it. -/
theorem describes_unique {opts : FindAddrOpts} {shdrs : List Shdr} {strs : Bytes} {s : Sym} {a b : SymInfo}
    (ha : Describes opts shdrs strs s a) (hb : Describes opts shdrs strs s b) : a = b := by
  obtain ⟨a1, a2, a3, a4, a5, a6⟩ := ha
  obtain ⟨b1, b2, b3, b4, b5, b6⟩ := hb
  have e1 := nameAt_unique a1 b1
  have e4 : a.symType = b.symType := by
    rcases a4 with ⟨p, q⟩ | ⟨p, q⟩ | ⟨p, q⟩ <;> rcases b4 with ⟨u, v⟩ | ⟨u, v⟩ | ⟨u, v⟩ <;>
      first
        | exact p.trans u.symm
        | omega
  have e5 : a.fileOffset = b.fileOffset := by
    cases ho : opts.fileOffset with
    | false => rw [a6 ho, b6 ho]
    | true =>
      have := (a5 ho).symm.trans (b5 ho)
      simpa using this
  cases a
  cases b
  simp only at e1 a2 b2 a3 b3 e4 e5
  simp only [SymInfo.mk.injEq]
  exact ⟨e1, by rw [a2, b2], by rw [a3, b3], e4, e5⟩

/-- A sequence that is related to another one by a function is the image under it. -/
theorem forall₂_functional {α β : Type} [Inhabited β] {R : α → β → Prop} (hf : ∀ a b c, R a b → R a c → b = c) :
    ∃ g : α → β, ∀ (l : List α) (m : List β), List.Forall₂ R l m → m = l.map g ∧ ∀ a ∈ l, R a (g a) := by
  classical
  refine ⟨fun a => if h : ∃ b, R a b then h.choose else default, ?_⟩
  intro l m h
  induction h with
  | nil => simp
  | @cons a b l m hab _ ih =>
    have hex : ∃ b, R a b := ⟨b, hab⟩
    have e : (if h : ∃ b, R a b then h.choose else default) = b := by
      rw [dif_pos hex]
      exact hf _ _ _ hex.choose_spec hab
    refine ⟨by rw [List.map_cons, e, ← ih.1], ?_⟩
    intro x hx
    rcases List.mem_cons.mp hx with rfl | hx
    · show R x (if h : ∃ b, R x b then h.choose else default)
      rw [e]; exact hab
    · exact ih.2 x hx

instance : Inhabited SymInfo := ⟨⟨[], 0, none, .undefined, none⟩⟩

/-- Of two exact reports about a table, one of which is about the symbols of a name in the other. -/
theorem reports_named {opts : FindAddrOpts} {shdrs : List Shdr} {t : SymTab} {P Q : Sym → Prop} {name : Bytes}
    {res all : List SymInfo} (hres : ReportsExactly t P (Describes opts shdrs t.strs) res)
    (hall : ReportsExactly t Q (Describes opts shdrs t.strs) all)
    (hPQ : ∀ s, P s ↔ Q s ∧ NameAt t.strs s.name name) : res.Perm (named name all) := by
  obtain ⟨is, hn1, hm1, hf1⟩ := hres
  obtain ⟨js, hn2, hm2, hf2⟩ := hall
  obtain ⟨g, hg⟩ := forall₂_functional (R := fun (i : Nat) r => ∃ s, t.syms[i]? = some s ∧ Describes opts shdrs t.strs s r)
    (by
      rintro i a b ⟨s, h1, h2⟩ ⟨s', h3, h4⟩
      rw [h1] at h3
      cases h3
      exact describes_unique h2 h4)
  obtain ⟨e1, _⟩ := hg is res hf1
  obtain ⟨e2, d2⟩ := hg js all hf2
  rw [e1, e2]
  unfold named
  rw [List.filter_map]
  refine List.Perm.map g ?_
  rw [List.perm_ext_iff_of_nodup hn1 (hn2.filter _)]
  intro i
  rw [hm1 i, List.mem_filter, hm2 i]
  constructor
  · rintro ⟨s, h1, h2⟩
    obtain ⟨hq, hname⟩ := (hPQ s).mp h2
    refine ⟨⟨s, h1, hq⟩, ?_⟩
    obtain ⟨s', h3, h4⟩ := d2 i ((hm2 i).mpr ⟨s, h1, hq⟩)
    rw [h1] at h3
    cases h3
    simpa using nameAt_unique h4.1 hname
  · rintro ⟨⟨s, h1, h2⟩, h3⟩
    refine ⟨s, h1, (hPQ s).mpr ⟨h2, ?_⟩⟩
    obtain ⟨s', h4, h5⟩ := d2 i ((hm2 i).mpr ⟨s, h1, h2⟩)
    rw [h1] at h4
    cases h4
    have : (g i).name = name := by simpa using h3
    rw [← this]
    exact h5.1

theorem named_nil {opts : FindAddrOpts} {shdrs : List Shdr} {t : SymTab} {Q : Sym → Prop} {name : Bytes}
    {all : List SymInfo} (hall : ReportsExactly t Q (Describes opts shdrs t.strs) all)
    (hQ : ∀ s ∈ t.syms, Q s → ¬ NameAt t.strs s.name name) : named name all = [] := by
  unfold named
  rw [List.filter_eq_nil_iff]
  intro info hi
  obtain ⟨s, h1, h2, h3⟩ := (TwoWay.reportsExactly_mem hall).1 info hi
  simp only [decide_eq_true_eq]
  rintro rfl
  exact hQ s h1 h2 h3.1

theorem named_append (name : Bytes) (a b : List SymInfo) : named name (a ++ b) = named name a ++ named name b := by
  unfold named
  rw [List.filter_append]

/-- **C99** (ELF, what holds) There is a listing of all symbols, and what is found for a name is in it, as often as it is found.
If the name is not in both tables, all that the listing has for the name is found.  For names in both tables that
is false, see `C99_elf_wrong`. -/
theorem C99_elf_partial (σ : Sorter) (file : File) (symtab dynsym : SymTab) (shdrs : List Shdr)
    (hs : file.shdrs = .ok shdrs) (h1 : file.symtab = .ok symtab) (h2 : file.dynsym = .ok dynsym)
    (hw : NoWrap symtab.syms) (hn1 : GoodNames symtab) (hn2 : GoodNames dynsym) (offsets : Bool)
    (hoff : offsets = true → ∀ s, s ∈ symtab.syms ∨ s ∈ dynsym.syms → Supported s → Defined s →
      ∃ o, fileOffset shdrs s = .ok o) :
    ∃ all, file.forEach σ ⟨offsets, .undefined⟩ collect [] = (.ok (), all) ∧
      ∀ name res, file.findAddr σ name ⟨offsets, .undefined⟩ = .ok res →
        res.Subperm (named name all) ∧
        (¬ (Has symtab name ∧ Has dynsym name) → res.Perm (named name all)) := by
  obtain ⟨v1, v2, r1, r2, hfeed⟩ := C45_for_each_elf_partial σ file symtab dynsym shdrs hs h1 h2 ⟨offsets, .undefined⟩
    hw hn1 hn2 hoff
  refine ⟨v1 ++ v2, ?_, ?_⟩
  · rw [(hfeed _ collect []).2 (by rw [feed_collect]), feed_collect]
    simp
  · intro name res h
    rw [named_append]
    by_cases hex : Has symtab name
    · have hp := reports_named (C08_find_addr_symtab σ file symtab shdrs hs h1 name _ res h hex) r1
        (fun s => ⟨fun ⟨a, b, c⟩ => ⟨⟨a, b⟩, c⟩, fun ⟨⟨a, b⟩, c⟩ => ⟨a, b, c⟩⟩)
      refine ⟨hp.subperm.trans (List.sublist_append_left _ _).subperm, fun hno => ?_⟩
      rw [named_nil r2 (fun s hs hq hname => hno ⟨hex, s, hs, hq.1, hq.2.1, hname⟩), List.append_nil]
      exact hp
    · have hno : ∀ s ∈ symtab.syms, Supported s → Defined s → ¬ NameAt symtab.strs s.name name :=
        fun s a b c d => hex ⟨s, a, b, c, d⟩
      have hp := reports_named (C08_find_addr_dynsym_partial σ file symtab dynsym shdrs hs h1 h2 name _ res h hno) r2
        (fun s => ⟨fun ⟨a, b, c, d⟩ => ⟨⟨a, b, d⟩, c⟩, fun ⟨⟨a, b, d⟩, c⟩ => ⟨a, b, c, d⟩⟩)
      rw [named_nil r1 (fun s hs hq => hno s hs hq.1 hq.2), List.nil_append]
      exact ⟨hp.subperm, fun _ => hp⟩

theorem map_of_describes {fs : List Breakpad.Function} {infos : List SymInfo}
    (h : List.Forall₂ Breakpad.Describes fs infos) : infos = fs.map Breakpad.symInfo := by
  induction h with
  | nil => rfl
  | cons h _ ih => rw [List.map_cons, ← ih, ← (Breakpad.describes_iff _ _).mp h]

/-- **C99** (Breakpad) What is found for a name is what the listing of all functions has for it, in the same order. -/
theorem C99_breakpad {file : Breakpad.SymbolFile} (hl : Breakpad.Loaded file) (ty : SymType) (hty : ty ≠ .variable) :
    ∃ all, file.forEach ty collect [] = (.ok (), all) ∧ ∀ name, file.lookupName name ty = .ok (named name all) := by
  obtain ⟨infos, h1, h2⟩ := (Breakpad.C45_breakpad file ty collect []).2 hty
  refine ⟨infos, by rw [h2, feed_collect]; simp, fun name => ?_⟩
  obtain ⟨res, h3, h4⟩ := (Breakpad.C56_name_lookup hl name ty).2 hty
  rw [h3, map_of_describes h4, map_of_describes h1]
  unfold named
  rw [List.filter_map]
  rfl

/-- **C99** (kernel symbols, what holds) What is found for a name is in the listing, and all that the listing has for the
name is found.  That nothing else is found is false, see `C31_reports_others`. -/
theorem C99_ksym_partial (syms : List Kernel.Ksym) (ty : SymType) (hty : ty ≠ .variable) :
    ∀ name, (∀ r ∈ Kernel.ksymFindAddr syms name ty, r ∈ Kernel.ksymForEach syms ty collect []) ∧
      ∀ r ∈ Kernel.ksymForEach syms ty collect [], r.info.name = name → r ∈ Kernel.ksymFindAddr syms name ty := by
  intro name
  obtain ⟨infos, h1, h2⟩ := (Kernel.C45_kallsyms syms ty collect []).2 hty
  rw [h2, feed_collect]
  obtain ⟨f1, f2⟩ := TwoWay.forall₂_exists h1
  obtain ⟨g1, g2⟩ := Kernel.C31_name_lookup_partial syms name ty hty
  constructor
  · intro r hr
    obtain ⟨k, hk, hrep⟩ := g2 r hr
    obtain ⟨r', hr', hrep'⟩ := f2 k hk
    rw [(Kernel.reports_iff k r).mp hrep, ← (Kernel.reports_iff k r').mp hrep']
    simpa using hr'
  · intro r hr hn
    obtain ⟨k, hk, hrep⟩ := f1 r (by simpa using hr)
    obtain ⟨r', hr', hrep'⟩ := g1 k hk (hrep.1.symm.trans hn)
    rw [(Kernel.reports_iff k r).mp hrep, ← (Kernel.reports_iff k r').mp hrep']
    exact hr'

/-- **C99** (defect): a listing of `TwoWay.sameName` has two symbols `foo`, looking up `foo` gives one. -/
theorem C99_elf_wrong (σ : Sorter) : ∃ all res, TwoWay.sameName.forEach σ ⟨false, .undefined⟩ collect [] = (.ok (), all) ∧
    TwoWay.sameName.findAddr σ [102, 111, 111] ⟨false, .undefined⟩ = .ok res ∧ ¬ res.Perm (named [102, 111, 111] all) := by
  obtain ⟨v1, v2, r1, r2, hfeed⟩ := C45_for_each_elf_partial σ TwoWay.sameName _ _ [] rfl rfl rfl ⟨false, .undefined⟩
    (by simp [NoWrap]) (TwoWay.good_foo _ _ _) (TwoWay.good_foo _ _ _) (by simp)
  obtain ⟨_, res, hres, hall⟩ := TwoWay.C98_elf_hidden σ
  refine ⟨v1 ++ v2, res, ?_, hres, ?_⟩
  · rw [(hfeed _ collect []).2 (by rw [feed_collect]), feed_collect]
    simp
  · intro hp
    obtain ⟨info, hi, d1, d2, _⟩ := (TwoWay.reportsExactly_mem r2).2 ⟨1, 2, 0, 1, 0x2000, 16⟩ (by simp)
      ⟨by simp [HasKind, Supported], by simp [Defined], by
        intro ty hk r hr
        obtain ⟨s, hs, _, _, c3, _⟩ := (C04_lookup_sound _ _ _ _ _ _ hr).1
        simp only [List.mem_cons, List.not_mem_nil, or_false] at hs
        subst hs
        simp [Covers] at c3⟩
    have hm : info ∈ named [102, 111, 111] (v1 ++ v2) := by
      unfold named
      rw [List.mem_filter]
      exact ⟨List.mem_append_right _ hi, by simpa using nameAt_unique d1 TwoWay.name_foo⟩
    have := hall info (hp.mem_iff.mpr hm)
    rw [d2] at this
    simp at this

/-! ### Inspectors -/

section Inspectors
open Blazesym.Dwarf (withModule ElfResolver ElfParser Tools)
open Blazesym.Inspect (Inspector World)
open Blazesym.Spec.Inspect (SymbolsOf Reachable SameContents Alike lookupNow forEachNow elfNow breakpadNow)

variable {M : Type}

theorem namedIn_map (name : Bytes) (module : Option Bytes) (all : List SymInfo) :
    namedIn name (all.map (withModule module)) = (named name all).map (withModule none) := by
  unfold namedIn named
  rw [List.filter_map, List.map_map]
  rfl

theorem strip_of_alike {a b : List CApi.SymInfo} (h : List.Forall₂ Alike a b) :
    a.map (fun i => { i with module := none }) = b.map (fun i => { i with module := none }) := by
  induction h with
  | nil => rfl
  | cons h _ ih => rw [List.map_cons, List.map_cons, ih]; exact congrArg (· :: _) h

theorem feed_with (module : Option Bytes) (xs : List SymInfo) (l : List CApi.SymInfo) :
    feed (fun (l : List CApi.SymInfo) i => collect l (withModule module i)) l xs =
      (l ++ xs.map (withModule module), false) := by
  rw [← Inspect.feed_map (withModule module) collect, feed_collect]

/-- **C99** (inspectors, ELF; partial as `C99_elf_partial`, and the module is not compared: listings have none) Two inspectors,
or one, used in any way before: what looking up a name in an ELF file gives is what visiting all its symbols gives for this
name, if the name is not in both symbol tables; it is among that in any case. -/
theorem C99_inspector_elf_partial [DecidableEq M] (t : Tools) (w : World M) {path data : Bytes}
    (hd : w.disk.opened path = .ok (.ok data)) {shdrs : List Shdr} {symtab dynsym : SymTab}
    (hp : SymbolsOf t.codec (.mem 4096 data) shdrs symtab dynsym) (s s' : Inspector M)
    (hr : Reachable t (SameContents w.disk.contents) s) (hr' : Reachable t (SameContents w.disk.contents) s')
    (name : Bytes) (hn : isUtf8 name = true) :
    ∃ all infos, (s.forEach t w (.elf path false) collect []).1 = (.ok (), all) ∧
      (s'.lookup t w (.elf path false) [name]).1 = .ok [infos] ∧
      (infos.map (fun i => { i with module := none })).Subperm (namedIn name all) ∧
      (¬ (Has symtab name ∧ Has dynsym name) →
        (infos.map (fun i => { i with module := none })).Perm (namedIn name all)) := by
  obtain ⟨v1, v2, r1, r2, hfeed⟩ := C45_for_each_elf_partial t.σ (File.ofImage t.codec (.mem 4096 data)) symtab dynsym shdrs
    hp.headers hp.static hp.dynamic ⟨true, .undefined⟩ hp.fits hp.names.1 hp.names.2
    (fun _ s hs a b => Inspect.offset_ok hp s hs a b)
  obtain ⟨all, hall, hnames⟩ := C99_elf_partial t.σ (File.ofImage t.codec (.mem 4096 data)) symtab dynsym shdrs hp.headers
    hp.static hp.dynamic hp.fits hp.names.1 hp.names.2 true (fun _ s hs a b => Inspect.offset_ok hp s hs a b)
  have hv : all = v1 ++ v2 := by
    have := (hfeed _ collect []).2 (by rw [feed_collect])
    rw [hall, feed_collect] at this
    simpa using this
  obtain ⟨res, hres⟩ := C08_find_addr_succeeds t.σ (File.ofImage t.codec (.mem 4096 data)) symtab dynsym shdrs hp.headers
    hp.static hp.dynamic name hn ⟨true, .undefined⟩ (fun _ s hs a b _ => Inspect.offset_ok hp s hs a b) hp.fits hp.names.1
    hp.names.2
  obtain ⟨k1, k2⟩ := hnames name res hres
  have hnow : lookupNow t w (.elf path false) [name] = .ok [res.map (withModule (some path))] := by
    simp only [lookupNow, elfNow, Bool.false_eq_true, if_false, Inspect.openParser_data hd, Inspect.lookupNames,
      ElfResolver.findAddr, ElfParser.findAddr, ElfParser.findAddrInfos, ElfParser.file, hres]
  have hlook := Inspect.C67_elf_lookup_partial t _ s' hr' w rfl path [name]
  rw [hnow] at hlook
  obtain ⟨infos, hl, hal⟩ : ∃ infos, (s'.lookup t w (.elf path false) [name]).1 = .ok [infos] ∧
      List.Forall₂ Alike infos (res.map (withModule (some path))) := by
    cases h : (s'.lookup t w (.elf path false) [name]).1 with
    | error e => rw [h] at hlook; exact hlook.elim
    | ok found =>
      rw [h] at hlook
      cases hlook with
      | cons h1 h2 => cases h2; exact ⟨_, rfl, h1⟩
  have hinfos : infos.map (fun i => { i with module := none }) = res.map (withModule none) := by
    rw [strip_of_alike hal, List.map_map]
    rfl
  refine ⟨all.map (withModule none), infos, ?_, hl, ?_, ?_⟩
  · rw [Inspect.C67_elf_for_each t _ s hr w rfl path]
    simp only [forEachNow, elfNow, Bool.false_eq_true, if_false, Inspect.openParser_data hd, ElfResolver.forEach,
      ElfParser.forEach, ElfParser.file]
    rw [(hfeed _ _ _).2 (by rw [feed_with]), feed_with, hv]
    simp
  · rw [hinfos, namedIn_map]
    obtain ⟨l, hl1, hl2⟩ := k1
    exact ⟨l.map (withModule none), hl1.map _, hl2.map _⟩
  · intro h
    rw [hinfos, namedIn_map]
    exact (k2 h).map _

/-- **C99** (inspectors, Breakpad) What looking up a name in a Breakpad file gives is what visiting all its functions gives for
this name, in the same order, whatever the inspectors were used for before. -/
theorem C99_inspector_breakpad [DecidableEq M] (t : Tools) (w : World M) {path text : Bytes}
    (hd : w.disk.opened path = .ok (.ok text)) {rs : List Breakpad.Record} (hp : Spec.Breakpad.IsSymbolFile rs text)
    (s s' : Inspector M) (hr : Reachable t (SameContents w.disk.contents) s)
    (hr' : Reachable t (SameContents w.disk.contents) s') (name : Bytes) :
    ∃ all, (s.forEach t w (.breakpad path) collect []).1 = (.ok (), all) ∧
      (s'.lookup t w (.breakpad path) [name]).1 = .ok [all.filter (fun i => decide (i.name = name))] := by
  obtain ⟨file, hf, _⟩ := Breakpad.C24_parse_complete hp
  obtain ⟨all, h1, h2⟩ := C99_breakpad ⟨text, hf⟩ .undefined (by simp)
  obtain ⟨infos, k1, k2⟩ := (Breakpad.C45_breakpad file .undefined collect []).2 (by simp)
  obtain ⟨infos', k3, k4⟩ := (Breakpad.C45_breakpad file .undefined
    (fun (l : List CApi.SymInfo) i => collect l (withModule none i)) []).2 (by simp)
  have e : all = infos := by
    rw [h1, feed_collect] at k2
    simpa using k2
  have e' : infos' = infos := (map_of_describes k3).trans (map_of_describes k1).symm
  subst e e'
  refine ⟨infos'.map (withModule none), ?_, ?_⟩
  · rw [Inspect.C67_breakpad_for_each t _ s hr w rfl path]
    simp only [forEachNow, breakpadNow, hd, hf]
    rw [k4, feed_with]
    simp
  · rw [Inspect.C67_breakpad_lookup t _ s' hr' w rfl path]
    simp only [lookupNow, breakpadNow, hd, hf, Inspect.lookupNames, Inspect.breakpadFindAddr, h2 name, List.filter_map]
    rfl

end Inspectors

/-! ### Concrete cases -/

/-- `bar` is in `.dynsym` only. -/
example (σ : Sorter) : ∃ all, twoTables.forEach σ ⟨false, .undefined⟩ collect [] = (.ok (), all) ∧
    ∀ res, twoTables.findAddr σ [98, 97, 114] ⟨false, .undefined⟩ = .ok res → res.Perm (named [98, 97, 114] all) := by
  obtain ⟨all, h1, h2⟩ := C99_elf_partial σ twoTables _ _ [] rfl rfl rfl (by simp [NoWrap]) twoTables_good1 twoTables_good2
    false (by simp)
  refine ⟨all, h1, fun res hres => (h2 _ res hres).2 ?_⟩
  rintro ⟨⟨s, hs, _, _, hn⟩, _⟩
  simp only [List.mem_cons, List.not_mem_nil, or_false] at hs
  subst hs
  exact absurd (nameAt_unique hn TwoWay.name_foo) (by decide)

example : ∃ all, (Breakpad.load Breakpad.dups).forEach .function collect [] = (.ok (), all) ∧
    ∀ name, (Breakpad.load Breakpad.dups).lookupName name .function = .ok (named name all) :=
  C99_breakpad (Breakpad.loaded_of (by decide +kernel)) .function (by simp)

/-- Kernel symbols with an alias. -/
example : ⟨⟨ascii "beta_alias", 0xffffffff81000030, none, .function, none⟩, none⟩ ∈
    Kernel.ksymForEach Kernel.demoKsyms .function collect [] :=
  (C99_ksym_partial Kernel.demoKsyms .function (by simp) (ascii "beta_alias")).1 _ (by decide +kernel)

/-- A file on disk, and inspectors that were not used before. -/
example : ∃ all infos, ((Inspect.Inspector.new : Inspect.Inspector Nat).forEach Dwarf.exTools (Inspect.exWorld false)
      (.elf (ascii "/bin/c") false) collect []).1 = (.ok (), all) ∧
    ((Inspect.Inspector.new : Inspect.Inspector Nat).lookup Dwarf.exTools (Inspect.exWorld false)
      (.elf (ascii "/bin/c") false) [ascii "f"]).1 = .ok [infos] ∧
    (infos.map (fun i => { i with module := none })).Perm (namedIn (ascii "f") all) := by
  obtain ⟨all, infos, h1, h2, _, h3⟩ := C99_inspector_elf_partial Dwarf.exTools (Inspect.exWorld false) Inspect.exWorld_c
    Inspect.tinySymbols Inspect.Inspector.new Inspect.Inspector.new .new .new (ascii "f") (by decide)
  refine ⟨all, infos, h1, h2, h3 ?_⟩
  rintro ⟨_, s, hs, _⟩
  cases hs

set_option maxRecDepth 20000 in
example (name : Bytes) : ∃ all, ((Inspect.Inspector.new : Inspect.Inspector Nat).forEach Dwarf.exTools Inspect.exNamesWorld
      (.breakpad (ascii "/s.sym")) collect []).1 = (.ok (), all) ∧
    ((Inspect.Inspector.new : Inspect.Inspector Nat).lookup Dwarf.exTools Inspect.exNamesWorld
      (.breakpad (ascii "/s.sym")) [name]).1 = .ok [all.filter (fun i => decide (i.name = name))] := by
  obtain ⟨rs, h⟩ := Inspect.dups_ok
  exact C99_inspector_breakpad Dwarf.exTools Inspect.exNamesWorld (by decide +kernel) h _ _ .new .new name

end Blazesym.Listing
