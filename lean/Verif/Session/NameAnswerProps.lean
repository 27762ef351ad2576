import Verif.Session.NameAnswerSpec
import Verif.Session.InspectorProps
import Verif.Breakpad.NameProps
import Verif.Dwarf.NameProps
import Verif.Breakpad.ParserProps
import Verif.Session.KernelDebugProps

/-! Property theorems C83 (what is reported for names, from the contents of files). -/

set_option autoImplicit false

namespace Blazesym.Inspect
open Blazesym.Util Blazesym.Cache Blazesym.Dwarf Blazesym.Spec Blazesym.Spec.Inspect
open Blazesym.Elf (Sym SymTab Shdr Backend Codec)
open Blazesym.Spec.Elf (Supported Defined KindOf HasKind Covers NearestStart SymbolOffset)

variable {M : Type}

/-! ### ELF files -/

theorem own_kind {s : Sym} (h : Supported s) : ∃ ty, KindOf s ty := by
  rcases h with h | h | h | h
  · exact ⟨.undefined, .inr (.inr ⟨rfl, h⟩)⟩
  · exact ⟨.variable, .inr (.inl ⟨rfl, h⟩)⟩
  · exact ⟨.function, .inl ⟨rfl, .inl h⟩⟩
  · exact ⟨.function, .inl ⟨rfl, .inr h⟩⟩

theorem offset_ok {c : Codec} {image : Backend} {shdrs : List Shdr} {symtab dynsym : SymTab}
    (hp : SymbolsOf c image shdrs symtab dynsym) (s : Sym) (hs : s ∈ symtab.syms ∨ s ∈ dynsym.syms) (h1 : Supported s)
    (h2 : Defined s) : ∃ o, Elf.fileOffset shdrs s = .ok o := by
  cases h : Elf.fileOffset shdrs s with
  | ok o => exact ⟨o, rfl⟩
  | error e =>
    obtain ⟨_, k1, k2⟩ := ((Elf.C09_symbol_offset shdrs hp.sections s).2 e).mp h
    have := hp.home s hs ⟨h1, h2⟩ k1
    omega

/-- What is reported for some symbols of a table, with a module. -/
theorem oneEach_of {shdrs : List Shdr} (hf : Spec.Elf.SectionsFit shdrs) {t : SymTab} {P Q : Sym → Prop}
    (hPQ : ∀ s, P s ↔ Q s) {infos : List Elf.SymInfo}
    (h : Spec.Elf.ReportsExactly t P (Spec.Elf.Describes ⟨true, .undefined⟩ shdrs t.strs) infos) (module : Option Bytes) :
    OneEach module shdrs t Q (infos.map (withModule module)) := by
  obtain ⟨is, h1, h2, h3⟩ := h
  refine ⟨is, h1, fun i => by rw [h2]; exact exists_congr fun s => and_congr_right fun _ => hPQ s, ?_⟩
  rw [List.forall₂_map_right_iff]
  refine h3.imp ?_
  rintro i r ⟨s, k1, k2, k3, k4, k5, k6, _⟩
  exact ⟨s, k1, k2, k3, k4, k5, ((Elf.C09_symbol_offset shdrs hf s).1 _).mp (k6 rfl), rfl⟩

/-- What is reported of `.dynsym`. -/
theorem fromDynsym_of {c : Codec} {image : Backend} {shdrs : List Shdr} {symtab dynsym : SymTab}
    (hp : SymbolsOf c image shdrs symtab dynsym) (σ : Sorter) {P Q : Sym → Prop} (hQ : ∀ s, Q s → Supported s)
    (hPQ : ∀ s, P s ↔ Q s ∧ ∀ ty, KindOf s ty → ∀ r, symtab.lookup σ .symtab s.value ty ≠ .ok (some r))
    {infos : List Elf.SymInfo}
    (h : Spec.Elf.ReportsExactly dynsym P (Spec.Elf.Describes ⟨true, .undefined⟩ shdrs dynsym.strs) infos)
    (module : Option Bytes) : FromDynsym module shdrs symtab dynsym Q (infos.map (withModule module)) := by
  refine ⟨P, ?_, ?_, oneEach_of hp.sections (fun _ => Iff.rfl) h module⟩
  · intro s hs
    obtain ⟨hq, hno⟩ := (hPQ s).mp hs
    refine ⟨hq, ?_⟩
    rintro s' ⟨k1, k2, ⟨ty, k3, k4⟩, k5, k6⟩
    obtain ⟨i, hi⟩ := List.mem_iff_getElem?.mp k1
    cases hl : symtab.lookup σ .symtab s.value ty with
    | error e =>
      exfalso
      obtain ⟨x, x1, x2, _, x3⟩ := Elf.C04_lookup_error _ _ _ _ _ _ hl
      obtain ⟨n, n1, n2⟩ := hp.names.1 x x1 x2
      rcases x3 with ⟨_, x3⟩ | ⟨_, _, _, _, x3⟩ | ⟨_, _, _, _, n', x3, x4⟩
      · have := hp.fits x x1 x2; omega
      · exact x3 n n1
      · rw [Elf.nameAt_unique x3 n1, n2] at x4; cases x4
    | ok o =>
      cases o with
      | some r => exact absurd hl (hno ty k3 r)
      | none =>
        obtain ⟨m1, m2, j, x, m3, m4, m5, m6, m7, _⟩ := Elf.C05_miss_condition σ symtab .symtab s.value ty hl i s' hi k6 k2 k4 k5
        exact ⟨m1, m2, i, j, x, m3.symm, hi, m4, m5, m6, m7⟩
  · intro s hq hno
    refine (hPQ s).mpr ⟨hq, fun ty hk r hr => ?_⟩
    obtain ⟨⟨s', k1, k2, k3, k4, _, _, k5, _⟩, k6⟩ := Elf.C04_lookup_sound _ _ _ _ _ _ hr
    exact hno s' ⟨k1, k2, ⟨ty, hk, k3⟩, k4, by rw [← k5]; exact k6⟩

/-- What is found for a name in an ELF file. -/
theorem findAddr_named (t : Tools) {image : Backend} {shdrs : List Shdr} {symtab dynsym : SymTab}
    (hp : SymbolsOf t.codec image shdrs symtab dynsym) (module : Option Bytes) {name : Bytes} (hn : isUtf8 name = true) :
    ∃ infos, (ElfParser.mk module image).findAddr t name ⟨true, .undefined⟩ = .ok infos ∧
      NamedIn module shdrs symtab dynsym name infos := by
  obtain ⟨infos, hi⟩ := Elf.C08_find_addr_succeeds t.σ _ symtab dynsym shdrs hp.headers hp.static hp.dynamic name hn
    ⟨true, .undefined⟩ (fun _ s hs h1 h2 _ => offset_ok hp s hs h1 h2) hp.fits hp.names.1 hp.names.2
  refine ⟨infos.map (withModule module), by
    simp only [ElfParser.findAddr, ElfParser.findAddrInfos, ElfParser.file, hi], ?_⟩
  have assoc : ∀ (strs : Bytes) (s : Sym), (Supported s ∧ Defined s ∧ NameAt strs s.name name) ↔ Bears strs name s :=
    fun strs s => and_assoc.symm
  by_cases hex : ∃ s ∈ symtab.syms, Bears symtab.strs name s
  · refine .symtab hex (oneEach_of hp.sections (assoc _) (Elf.C08_find_addr_symtab t.σ _ symtab shdrs hp.headers hp.static name
      _ infos hi ?_) module)
    obtain ⟨s, h1, h2⟩ := hex
    exact ⟨s, h1, (assoc _ _).mpr h2⟩
  · refine .dynsym (fun s h1 h2 => hex ⟨s, h1, h2⟩) (fromDynsym_of hp t.σ (fun s h => h.1.1) (fun s => ?_)
      (Elf.C08_find_addr_dynsym_partial t.σ _ symtab dynsym shdrs hp.headers hp.static hp.dynamic name _ infos hi
        (fun s h1 h2 h3 h4 => hex ⟨s, h1, ⟨h2, h3⟩, h4⟩)) module)
    unfold Bears Own
    tauto

/-- Looking up several names. -/
theorem lookupNames_ok {find : Bytes → Except Err (List CApi.SymInfo)} {R : Bytes → List CApi.SymInfo → Prop}
    {names : List Bytes} (h : ∀ n ∈ names, ∃ infos, find n = .ok infos ∧ R n infos) :
    ∃ found, lookupNames find names = .ok found ∧ List.Forall₂ R names found := by
  induction names with
  | nil => exact ⟨[], rfl, .nil⟩
  | cons n names ih =>
    obtain ⟨found, h1, h2⟩ := ih fun x hx => h x (List.mem_cons_of_mem _ hx)
    obtain ⟨infos, h3, h4⟩ := h n List.mem_cons_self
    exact ⟨infos :: found, by simp only [lookupNames, h3, h1], .cons h4 h2⟩

theorem openParser_data {w : World M} {path data : Bytes} (hd : w.disk.opened path = .ok (.ok data)) :
    openParser w.disk path = .ok ⟨some path, .mem 4096 data⟩ := by
  simp only [openParser, hd, elfParse]

theorem forall₂_alike {R : Bytes → List CApi.SymInfo → Prop} {names : List Bytes} {a b : List (List CApi.SymInfo)}
    (h1 : List.Forall₂ (List.Forall₂ Alike) a b) (h2 : List.Forall₂ R names b) :
    List.Forall₂ (fun n x => ∃ y, R n y ∧ List.Forall₂ Alike x y) names a := by
  induction h1 generalizing names with
  | nil => cases h2; exact .nil
  | cons h _ ih =>
    cases h2 with
    | cons k1 k2 => exact .cons ⟨_, k1, h⟩ (ih k2)

/-- **C83** (ELF; partial: the reported path is that of the file for the first call only) Looking up names in an ELF
file, without its debug information, succeeds and reports for each name the symbols of `.symtab` with this name,
each once and with its name, address, size, kind and place in the file, or, if there is none, those of `.dynsym`,
except for those at addresses of symbols of `.symtab`.  A new inspector reports them with the path of the
file; one that has been used before may report another path (see `C67_module_wrong`). -/
theorem C83_elf_partial [DecidableEq M] (t : Tools) (w : World M) {path data : Bytes}
    (hd : w.disk.opened path = .ok (.ok data)) {shdrs : List Shdr} {symtab dynsym : SymTab}
    (hp : SymbolsOf t.codec (.mem 4096 data) shdrs symtab dynsym) (names : List Bytes)
    (hn : ∀ n ∈ names, isUtf8 n = true) :
    (∃ found, ((Inspector.new : Inspector M).lookup t w (.elf path false) names).1 = .ok found ∧
      List.Forall₂ (NamedIn (some path) shdrs symtab dynsym) names found) ∧
    ∀ s : Inspector M, Reachable t (SameContents w.disk.contents) s →
      ∃ found, (s.lookup t w (.elf path false) names).1 = .ok found ∧
        List.Forall₂ (fun name infos => ∃ infos', NamedIn (some path) shdrs symtab dynsym name infos' ∧
          List.Forall₂ Alike infos infos') names found := by
  obtain ⟨found, h1, h2⟩ := lookupNames_ok (R := NamedIn (some path) shdrs symtab dynsym)
    (find := fun name => (ElfResolver.elf ⟨some path, .mem 4096 data⟩).findAddr t name ⟨true, .undefined⟩)
    (fun n h => findAddr_named t hp (some path) (hn n h))
  have hnow : lookupNow t w (.elf path false) names = .ok found := by
    simp only [lookupNow, elfNow, Bool.false_eq_true, if_false, openParser_data hd]
    exact h1
  refine ⟨⟨found, ?_, h2⟩, fun s hr => ?_⟩
  · have := C67_debug_lookup_partial t ⟨w.disk.contents, fun _ => path, elfParse, fun _ => .error .notFound⟩ rfl
      (Inspector.new : Inspector M) .new w path false ⟨rfl, fun _ _ => ⟨rfl, fun h => by cases h⟩⟩ names
    rw [this, hnow]
  · have := C67_elf_lookup_partial t _ s hr w rfl path names
    rw [hnow] at this
    cases hl : (s.lookup t w (.elf path false) names).1 with
    | error e => rw [hl] at this; exact this.elim
    | ok found' =>
      rw [hl] at this
      exact ⟨found', rfl, forall₂_alike this h2⟩

theorem feed_map {S X Y : Type} (g : X → Y) (f : S → Y → S × Bool) (l : List X) (s : S) :
    Spec.Elf.feed f s (l.map g) = Spec.Elf.feed (fun s x => f s (g x)) s l := by
  induction l generalizing s with
  | nil => rfl
  | cons x l ih =>
    rw [List.map_cons]
    unfold Spec.Elf.feed
    generalize f s (g x) = r
    obtain ⟨s', b⟩ := r
    cases b
    · exact ih s'
    · rfl

/-- **C83** (ELF, all symbols; partial: early exit, see `C45_break_ignored`) Visiting all symbols of an ELF file hands
to the callback all defined symbols of `.symtab`, each once, until it asks to stop, and then those of `.dynsym` at
other addresses, until it asks to stop, whatever the inspector has been used for before. -/
theorem C83_elf_all_partial [DecidableEq M] (t : Tools) (w : World M) {path data : Bytes}
    (hd : w.disk.opened path = .ok (.ok data)) {shdrs : List Shdr} {symtab dynsym : SymTab}
    (hp : SymbolsOf t.codec (.mem 4096 data) shdrs symtab dynsym) :
    ∃ first second, OneEach none shdrs symtab Own first ∧ FromDynsym none shdrs symtab dynsym Own second ∧
      ∀ s : Inspector M, Reachable t (SameContents w.disk.contents) s → ∀ (S : Type) (f : S → CApi.SymInfo → S × Bool) (a : S),
        (s.forEach t w (.elf path false) f a).1 =
          (.ok (), (Spec.Elf.feed f (Spec.Elf.feed f a first).1 second).1) := by
  obtain ⟨v1, v2, h1, h2, h3⟩ := Elf.C45_for_each_elf_partial t.σ _ symtab dynsym shdrs hp.headers hp.static hp.dynamic
    ⟨true, .undefined⟩ hp.fits hp.names.1 hp.names.2 (fun _ s hs a b => offset_ok hp s hs a b)
  refine ⟨v1.map (withModule none), v2.map (withModule none), oneEach_of hp.sections (fun _ => Iff.rfl) h1 none,
    fromDynsym_of hp t.σ (fun s h => h.1) (fun s => ?_) h2 none, fun s hr S f a => ?_⟩
  · exact and_assoc.symm
  · rw [C67_elf_for_each t _ s hr w rfl path f a]
    simp only [forEachNow, elfNow, Bool.false_eq_true, if_false, openParser_data hd, ElfResolver.forEach, ElfParser.forEach,
      ElfParser.file, (h3 S (fun s i => f s (withModule none i)) a).1, feed_map]

/-! ### Breakpad files -/

theorem sortByKey_rel {α β κ : Type} [LinearOrder κ] {ka : α → κ} {kb : β → κ} {R : α → β → Prop} (hk : ∀ a b, R a b → ka a = kb b)
    {l : List α} {m : List β} (h : List.Forall₂ R l m) : List.Forall₂ R (sortByKey ka l) (sortByKey kb m) := by
  have ins : ∀ (a : α) (b : β), R a b → ∀ (l : List α) (m : List β), List.Forall₂ R l m →
      List.Forall₂ R (insertByKey ka a l) (insertByKey kb b m) := by
    intro a b hab l m h
    induction h with
    | nil => exact .cons hab .nil
    | cons h1 h2 ih =>
      simp only [insertByKey, hk _ _ hab, hk _ _ h1]
      split
      · exact .cons hab (.cons h1 h2)
      · exact .cons h1 ih
  induction h with
  | nil => exact .nil
  | cons h1 _ ih => exact ins _ _ h1 _ _ ih

theorem filter_rel {α β : Type} {p : α → Bool} {q : β → Bool} {R : α → β → Prop} (hk : ∀ a b, R a b → p a = q b)
    {l : List α} {m : List β} (h : List.Forall₂ R l m) : List.Forall₂ R (l.filter p) (m.filter q) := by
  induction h with
  | nil => exact .nil
  | cons h1 _ ih =>
    rw [List.filter_cons, List.filter_cons, hk _ _ h1]
    split
    · exact .cons h1 ih
    · exact ih

theorem stable_filter {α κ : Type} [LinearOrder κ] {key : α → κ} {l out : List α} (p : α → Bool)
    (h : StableSorted key l out) : StableSorted key (l.filter p) (out.filter p) := by
  refine ⟨h.1.filter _, fun k => ?_⟩
  rw [List.filter_filter, List.filter_filter]
  have := congrArg (List.filter p) (h.2 k)
  simpa only [List.filter_filter, Bool.and_comm] using this

/-- The functions of a file that was read, by the records. -/
theorem functions_of {rs : List Breakpad.Record} {file : Breakpad.SymbolFile} (h : Spec.Breakpad.Describes rs file) :
    ∃ listed, StableSorted (fun f => pairKey f.addr f.size) (Spec.Breakpad.functions rs) listed ∧
      List.Forall₂ (fun raw f => f.addr = raw.addr ∧ f.size = raw.size ∧ f.name = raw.name) listed file.functions := by
  obtain ⟨fs, h1, h2⟩ := h.functions
  refine ⟨_, sortByKey_stable _ _, ?_⟩
  rw [StableSorted.unique h2 (sortByKey_stable _ _)]
  refine sortByKey_rel ?_ (h1.imp fun raw f hf => ⟨hf.1, hf.2.1, hf.2.2.2.1⟩)
  rintro a b ⟨k1, k2, _⟩
  rw [k1, k2]

theorem tellsRecord {raw f : Breakpad.Function} {i : Elf.SymInfo} (h : f.addr = raw.addr ∧ f.size = raw.size ∧ f.name = raw.name)
    (hd : Breakpad.Describes f i) : TellsRecord raw (withModule none i) := by
  obtain ⟨k1, k2, k3⟩ := h
  obtain ⟨d1, d2, d3, d4, d5⟩ := hd
  exact ⟨d1.trans k3, d2.trans k1, by rw [← k2]; exact d3, d4, d5, rfl⟩

/-- **C83** (Breakpad) Looking up names in a Breakpad file reports for each name the `FUNC` records with this name,
in the order of their addresses and sizes, whatever the inspector has been used for before. -/
theorem C83_breakpad [DecidableEq M] (t : Tools) (w : World M) {path text : Bytes}
    (hd : w.disk.opened path = .ok (.ok text)) {rs : List Breakpad.Record} (hp : Spec.Breakpad.IsSymbolFile rs text)
    (names : List Bytes) (s : Inspector M) (hr : Reachable t (SameContents w.disk.contents) s) :
    ∃ found, (s.lookup t w (.breakpad path) names).1 = .ok found ∧
      List.Forall₂ (fun name infos => ∃ listed, StableSorted (fun f => pairKey f.addr f.size)
        ((Spec.Breakpad.functions rs).filter (fun f => decide (f.name = name))) listed ∧
        List.Forall₂ TellsRecord listed infos) names found := by
  obtain ⟨file, hf, hdes⟩ := Breakpad.C24_parse_complete hp
  obtain ⟨listed, k1, k2⟩ := functions_of hdes
  rw [C67_breakpad_lookup t _ s hr w rfl path names]
  simp only [lookupNow, breakpadNow, hd, hf]
  refine lookupNames_ok fun name _ => ?_
  obtain ⟨infos, h1, h2⟩ := (Breakpad.C56_name_lookup ⟨text, hf⟩ name .undefined).2 (by simp)
  refine ⟨infos.map (withModule none), by simp only [breakpadFindAddr, h1], _, stable_filter _ k1, ?_⟩
  rw [List.forall₂_map_right_iff]
  have k3 := filter_rel (p := fun f => decide (f.name = name)) (q := fun f => decide (f.name = name))
    (fun a b h => by rw [h.2.2]) k2
  generalize List.filter _ file.functions = fs at h2 k3
  generalize List.filter _ listed = raws at k3
  clear h1
  induction k3 generalizing infos with
  | nil => cases h2; exact .nil
  | cons a _ ih =>
    cases h2 with
    | cons b c => exact .cons (tellsRecord a b) (ih _ c)

/-- **C83** (Breakpad, all functions) Visiting all symbols of a Breakpad file hands all `FUNC` records to the callback, in the
order of their addresses and sizes, until it asks to stop. -/
theorem C83_breakpad_all [DecidableEq M] (t : Tools) (w : World M) {path text : Bytes}
    (hd : w.disk.opened path = .ok (.ok text)) {rs : List Breakpad.Record} (hp : Spec.Breakpad.IsSymbolFile rs text) :
    ∃ listed infos, StableSorted (fun f => pairKey f.addr f.size) (Spec.Breakpad.functions rs) listed ∧
      List.Forall₂ TellsRecord listed infos ∧
      ∀ s : Inspector M, Reachable t (SameContents w.disk.contents) s → ∀ (S : Type) (f : S → CApi.SymInfo → S × Bool) (a : S),
        (s.forEach t w (.breakpad path) f a).1 = (.ok (), (Spec.Elf.feed f a infos).1) := by
  obtain ⟨file, hf, hdes⟩ := Breakpad.C24_parse_complete hp
  obtain ⟨listed, k1, k2⟩ := functions_of hdes
  refine ⟨listed, (file.functions.map Breakpad.symInfo).map (withModule none), k1, ?_, fun s hr S f a => ?_⟩
  · rw [List.forall₂_map_right_iff, List.forall₂_map_right_iff]
    exact k2.imp fun raw g h => tellsRecord h ((Breakpad.describes_iff g _).mpr rfl)
  · rw [C67_breakpad_for_each t _ s hr w rfl path f a]
    simp only [forEachNow, breakpadNow, hd, hf, feed_map]
    obtain ⟨infos, h1, h2⟩ := (Breakpad.C45_breakpad file .undefined (fun a i => f a (withModule none i)) a).2 (by simp)
    rw [h2]
    have : infos = file.functions.map Breakpad.symInfo := by
      clear h2
      generalize file.functions = fs at h1
      induction h1 with
      | nil => rfl
      | cons h _ ih => rw [List.map_cons, ← ih, ← (Breakpad.describes_iff _ _).mp h]
    rw [this, feed_map]

/-! ### Debug information -/

theorem segmentOffset_of {file : Elf.File} {phdrs : List Elf.Phdr} (hp : file.phdrs = .ok phdrs)
    (hfit : Spec.Elf.SegmentsFit phdrs) (addr size : Nat) :
    ∃ o, file.findFileOffset addr size = .ok o ∧ SegmentOffset phdrs addr size o := by
  obtain ⟨h1, h2⟩ := Elf.C09_find_file_offset file phdrs hp hfit addr size
  by_cases h : ∃ p ∈ phdrs, Spec.Elf.InMem p addr size
  · have : ∃ pre p post, phdrs = pre ++ p :: post ∧ Spec.Elf.InMem p addr size ∧ ∀ q ∈ pre, ¬ Spec.Elf.InMem q addr size := by
      clear h1 h2 hp hfit
      induction phdrs with
      | nil => obtain ⟨_, h, _⟩ := h; cases h
      | cons q rest ih =>
        by_cases hq : Spec.Elf.InMem q addr size
        · exact ⟨[], q, rest, rfl, hq, by simp⟩
        · obtain ⟨p, p1, p2⟩ := h
          rcases List.mem_cons.mp p1 with rfl | p1
          · exact absurd p2 hq
          · obtain ⟨pre, p, post, e1, e2, e3⟩ := ih ⟨p, p1, p2⟩
            refine ⟨q :: pre, p, post, by rw [e1]; rfl, e2, ?_⟩
            intro x hx
            rcases List.mem_cons.mp hx with rfl | hx
            · exact hq
            · exact e3 x hx
    obtain ⟨pre, p, post, e1, e2, e3⟩ := this
    exact ⟨_, h1 pre p post e1 e2 e3, .mapped pre p post e1 e2 e3⟩
  · have h' : ∀ p ∈ phdrs, ¬ Spec.Elf.InMem p addr size := fun p h3 h4 => h ⟨p, h3, h4⟩
    exact ⟨none, h2 h', .unmapped h'⟩

theorem tellsCode_of {t : Tools} {path data : Bytes} {d : DebugData} {phdrs : List Elf.Phdr} {file : Bytes} {source : Backend}
    (hp : DebugPartsOf t path data d phdrs file source) {du : DieUnit} {x : Nat × Entry} {i : Elf.SymInfo}
    (h : Spec.Dwarf.FunctionInfo d.units.units du (ElfParser.findFileOffset t ⟨some path, .mem 4096 data⟩) true x i) :
    TellsCode path phdrs d.units.units du x (withModule (some path) i) := by
  refine ⟨h.name, h.kind, h.addr, h.size, fun n hn => ?_, rfl⟩
  have ho := h.offset
  rw [if_pos rfl] at ho
  obtain ⟨m, m1, m2⟩ := ho
  have hmn : m = n := by
    have hn : i.size = some n := hn
    rw [m1] at hn
    exact Option.some.inj hn
  subst hmn
  obtain ⟨o, k1, k2⟩ := segmentOffset_of hp.segments.1 hp.segments.2 i.addr m
  have : (Except.ok o : Except Err (Option Nat)) = .ok i.fileOffset := k1.symm.trans m2
  cases this
  exact k2

/-- The functions that are found for a name. -/
theorem firstPerUnit_of {t : Tools} {path data : Bytes} {d : DebugData} {phdrs : List Elf.Phdr} {file : Bytes} {source : Backend}
    (hp : DebugPartsOf t path data d phdrs file source) {name : Bytes} (hn : isUtf8 name = true) :
    ∀ us : List Dwarf.Unit, (∀ u ∈ us, u ∈ d.units.units) →
    ∃ fs syms, d.units.findName t.σ name us = .ok fs ∧
      (d.resolver t ⟨some path, .mem 4096 data⟩).symInfos true fs = .ok syms ∧
      FirstPerUnit path phdrs d.units.units name us (syms.map (withModule (some path))) := by
  intro us
  induction us with
  | nil => intro _; exact ⟨[], [], rfl, rfl, .nil⟩
  | cons u us ih =>
    intro hmem
    obtain ⟨fs, syms, h1, h2, h3⟩ := ih fun x hx => hmem x (List.mem_cons_of_mem _ hx)
    obtain ⟨all, ha⟩ := allFindName_isOk (σ := t.σ) (name := name) hp.sorted [u] (fun x hx => by
      rw [List.mem_singleton] at hx
      subst hx
      exact hp.entries x (hmem x List.mem_cons_self))
    obtain ⟨o, ho, _⟩ := (findName_ok _ _ ha).1 u List.mem_cons_self
    obtain ⟨du, stream, q1, q2⟩ := unitFindName_ok hp.sorted ho
    rcases q2 with ⟨rfl, q2⟩ | ⟨f, x, pre, post, rfl, q3, q4, q5, q6⟩
    · exact ⟨fs, syms, by rw [Units.findName, ho, h1]; rfl, h2, .skip u us du stream _ q1 q2 h3⟩
    · obtain ⟨so, s1⟩ := symInfo_isOk (r := d.resolver t ⟨some path, .mem 4096 data⟩) (w := true) (f := f)
        (fun n h => by rw [q5] at h; rw [← Option.some.inj h]; exact hn)
        (fun _ a n => by
          obtain ⟨o, k1, _⟩ := segmentOffset_of hp.segments.1 hp.segments.2 a n
          exact ⟨o, k1⟩)
      rcases symInfo_ok q4 s1 with ⟨_, w⟩ | ⟨info, n, w1, w2, w3, _, w4⟩
      · rw [q5] at w; cases w
      · subst w1
        rw [q5] at w2
        have hnn := Option.some.inj w2
        subst hnn
        refine ⟨f :: fs, info :: syms, by rw [Units.findName, ho, h1]; rfl, ?_,
          .first u us du stream pre post x _ _ q1 q3 q6 (tellsCode_of hp w4) w3 h3⟩
        simp only [Resolver.symInfos, s1, h2, bind, Except.bind, pure, Except.pure]

/-- What is found for a name in a file with debug information. -/
theorem debugFindAddr_named {t : Tools} {path data : Bytes} {d : DebugData} {phdrs : List Elf.Phdr} {file : Bytes} {source : Backend}
    (hp : DebugPartsOf t path data d phdrs file source) {shdrs : List Shdr} {symtab dynsym : SymTab}
    (hs : SymbolsOf t.codec source shdrs symtab dynsym) {name : Bytes} (hn : isUtf8 name = true) :
    ∃ infos, (ElfResolver.dwarf ⟨some path, .mem 4096 data⟩ d).findAddr t name ⟨true, .undefined⟩ = .ok infos ∧
      NamedInDebug path phdrs d.units.units file shdrs symtab dynsym name infos := by
  obtain ⟨fs, syms, h1, h2, h3⟩ := firstPerUnit_of hp hn d.units.units (fun _ h => h)
  simp only [ElfResolver.findAddr, debugFindAddr]
  rw [if_neg (by simp)]
  simp only [h1, h2, bind, Except.bind]
  cases syms with
  | nil =>
    simp only [List.isEmpty_nil, if_true, hp.source]
    obtain ⟨infos, k1, k2⟩ := findAddr_named t hs (some file) hn
    exact ⟨infos, k1, .symbols h3 k2⟩
  | cons s syms => exact ⟨_, rfl, .functions h3 (by simp)⟩

/-- **C83** (debug information; partial: see C67 for histories that are not orderly, and C65 for several functions of
one unit with the same name) Looking up names in an ELF file with debug information, which is the default, succeeds and reports
for each name the first function with this name of every unit, with its address, size and place in the file, or, if there is none,
the symbols of the file the debug information is from. -/
theorem C83_debug_partial [DecidableEq M] (t : Tools) (u : Universe Bytes M (Except Err Bytes) ElfParser DebugData)
    (hu : u.parse = elfParse) (s : Inspector M) (hr : Reachable t (Orderly t u) s) (w : World M) {path data : Bytes}
    (ho : Orderly t u w (.elf path true)) (hd : w.disk.opened path = .ok (.ok data)) {d : DebugData}
    (hdd : (fromParser t w.files [ascii "/usr/lib/debug", ascii "/lib/debug/"] ⟨some path, .mem 4096 data⟩).eval
      (openParser w.disk) = .ok d) {phdrs : List Elf.Phdr} {file : Bytes} {source : Backend}
    (hp : DebugPartsOf t path data d phdrs file source) {shdrs : List Shdr} {symtab dynsym : SymTab}
    (hs : SymbolsOf t.codec source shdrs symtab dynsym) (names : List Bytes) (hn : ∀ n ∈ names, isUtf8 n = true) :
    ∃ found, (s.lookup t w (.elf path true) names).1 = .ok found ∧
      List.Forall₂ (NamedInDebug path phdrs d.units.units file shdrs symtab dynsym) names found := by
  rw [C67_debug_lookup_partial t u hu s hr w path true ho names]
  simp only [lookupNow, elfNow, if_true, openWithDebugDirs, openParser_data hd, hdd]
  exact lookupNames_ok fun n h => debugFindAddr_named hp hs (hn n h)

theorem eachNamed_of {t : Tools} {path data : Bytes} {d : DebugData} {phdrs : List Elf.Phdr} {file : Bytes} {source : Backend}
    (hp : DebugPartsOf t path data d phdrs file source) {xs : List (DieUnit × (Nat × Entry))} {infos : List Elf.SymInfo}
    (h : Spec.Dwarf.NamedInfos d.units.units (ElfParser.findFileOffset t ⟨some path, .mem 4096 data⟩) true xs infos) :
    EachNamed path phdrs d.units.units xs (infos.map (withModule (some path))) := by
  induction h with
  | nil => exact .nil
  | skip h1 _ ih => exact .skip _ _ _ _ h1 ih
  | cons h1 _ ih => exact .cons _ _ _ _ _ (tellsCode_of hp h1) ih

/-- **C83** (debug information, all functions; partial: see above) Visiting all symbols of a file with debug information
hands to the callback the functions of the debug information that have names, in the order of the units and of the entries in
them, until it asks to stop. -/
theorem C83_debug_all_partial [DecidableEq M] {S : Type} (t : Tools) (u : Universe Bytes M (Except Err Bytes) ElfParser DebugData)
    (hu : u.parse = elfParse) (w : World M) {path data : Bytes}
    (ho : Orderly t u w (.elf path true)) (hd : w.disk.opened path = .ok (.ok data)) {d : DebugData}
    (hdd : (fromParser t w.files [ascii "/usr/lib/debug", ascii "/lib/debug/"] ⟨some path, .mem 4096 data⟩).eval
      (openParser w.disk) = .ok d) {phdrs : List Elf.Phdr} {file : Bytes} {source : Backend}
    (hp : DebugPartsOf t path data d phdrs file source)
    (htext : ∀ u ∈ d.units.units, ∀ du stream, Spec.Dwarf.EntriesOf u.header du stream →
      ∀ x ∈ Spec.Dwarf.functionsIn stream, ∀ n, Spec.Dwarf.HasName d.units.units du x.2.attrs (some n) → isUtf8 n = true) :
    ∃ xs infos, Spec.Dwarf.AllFunctions d.units.units xs ∧ EachNamed path phdrs d.units.units xs infos ∧
      ∀ s : Inspector M, Reachable t (Orderly t u) s → ∀ (f : S → CApi.SymInfo → S × Bool) (a : S),
        (s.forEach t w (.elf path true) f a).1 = (.ok (), (Spec.Elf.feed f a infos).1) := by
  obtain ⟨xs, infos, h1, h2, h3⟩ := C45_dwarf (S := S) t.σ (d.resolver t ⟨some path, .mem 4096 data⟩) hp.sorted
    ⟨true, .undefined⟩ (by simp) (fun u hu => by
      obtain ⟨du, stream, k1, k2⟩ := hp.entries u hu
      exact ⟨du, stream, k1, k2, htext u hu du stream k1⟩)
    (fun _ a n => by
      obtain ⟨o, k1, _⟩ := segmentOffset_of hp.segments.1 hp.segments.2 a n
      exact ⟨o, k1⟩)
  refine ⟨xs, infos.map (withModule (some path)), h1, eachNamed_of hp h2, fun s hr f a => ?_⟩
  rw [C67_debug_for_each_partial t u hu s hr w path true ho f a]
  simp only [forEachNow, elfNow, if_true, openWithDebugDirs, openParser_data hd, hdd, ElfResolver.forEach, h3, feed_map]

/-- The hypotheses about debug information for a file that refers to no other file, and has no package of debug
information beside it. -/
theorem orderly_alone (t : Tools) {w : World M} {path data : Bytes} (hd : w.disk.opened path = .ok (.ok data))
    (hlink : Elf.readDebugLink t.codec (.mem 4096 data) = .ok none)
    (hdwp : w.disk.stat (path ++ ascii ".dwp") = .error .notFound) :
    (fromParser t w.files [ascii "/usr/lib/debug", ascii "/lib/debug/"] ⟨some path, .mem 4096 data⟩).eval
      (openParser w.disk) = (t.load (.mem 4096 data) none).map (fun units => ⟨units, none⟩) ∧
    ∃ u : Universe Bytes M (Except Err Bytes) ElfParser DebugData, u.parse = elfParse ∧ Orderly t u w (.elf path true) := by
  have hb : fromParser t w.files [ascii "/usr/lib/debug", ascii "/lib/debug/"] ⟨some path, .mem 4096 data⟩ =
      andThen (findDwp ⟨some path, .mem 4096 data⟩) fun dwp =>
        match t.load (.mem 4096 data) (dwp.map ElfParser.image) with
        | .error e => .done (.error e)
        | .ok units => .done (.ok ⟨units, none⟩) := by
    unfold fromParser derefDebugLink
    rw [hlink]
    rfl
  have h3 : ∀ (g : Option ElfParser → Cache.Prog Bytes ElfParser DebugData)
      (look : Bytes → Except Err ElfParser), look (path ++ ascii ".dwp") = .error .notFound →
      (andThen (findDwp ⟨some path, .mem 4096 data⟩) g).eval look = (g none).eval look ∧
      (andThen (findDwp ⟨some path, .mem 4096 data⟩) g).asked look =
        (path ++ ascii ".dwp") :: (g none).asked look := by
    intro g look hlook
    constructor
    · simp only [andThen, Cache.Prog.eval, findDwp, hlook]
    · simp only [andThen, Cache.Prog.asked, findDwp, hlook]
  have he : ∀ look : Bytes → Except Err ElfParser, look (path ++ ascii ".dwp") = .error .notFound →
      (fromParser t w.files [ascii "/usr/lib/debug", ascii "/lib/debug/"] ⟨some path, .mem 4096 data⟩).eval look =
        (t.load (.mem 4096 data) none).map (fun units => ⟨units, none⟩) ∧
      (fromParser t w.files [ascii "/usr/lib/debug", ascii "/lib/debug/"] ⟨some path, .mem 4096 data⟩).asked look =
        [path ++ ascii ".dwp"] := by
    intro look hl
    rw [hb, (h3 _ _ hl).1, (h3 _ _ hl).2]
    cases hx : t.load (.mem 4096 data) none <;> simp [hx, Cache.Prog.eval, Cache.Prog.asked, Except.map]
  obtain ⟨m, h1, h2⟩ : ∃ m, w.disk.stat path = .ok m ∧ w.disk.contents m = .ok (.ok data) := by
    unfold Disk.opened at hd
    cases hs : w.disk.stat path with
    | error e => rw [hs] at hd; cases hd
    | ok m => rw [hs] at hd; exact ⟨m, rfl, hd⟩
  refine ⟨(he _ ?_).1, ⟨w.disk.contents, fun _ => path, elfParse, fun _ =>
    (t.load (.mem 4096 data) none).map (fun units => ⟨units, none⟩)⟩, rfl, rfl, ?_⟩
  · unfold openParser Disk.opened
    rw [hdwp]
  · intro m' hm'
    rw [h1] at hm'
    cases hm'
    refine ⟨rfl, fun _ f pr hf hp => ?_⟩
    have hf' : w.disk.contents m = .ok f := hf
    rw [h2] at hf'
    cases hf'
    cases hp
    have := he (Universe.lookup (P := Bytes) (M := M) (F := Except Err Bytes) (Pr := ElfParser) (D := DebugData) ⟨w.disk.contents, fun _ => path, elfParse, fun _ =>
      (t.load (.mem 4096 data) none).map (fun units => ⟨units, none⟩)⟩ w.disk.stat) (by
        unfold Universe.lookup; rw [hdwp]; rfl)
    refine ⟨this.1, fun q hq m'' hm'' => ?_⟩
    rw [this.2, List.mem_singleton] at hq
    subst hq
    rw [hdwp] at hm''
    cases hm''

/-! ### Examples -/

def tinyShdrs : List Shdr :=
  match (Elf.File.ofImage Elf.noCodec (.mem 4096 Elf.tinyElf)).shdrs with
  | .ok l => l
  | .error _ => []

set_option maxRecDepth 20000 in
theorem tinySymbols : SymbolsOf Elf.noCodec (.mem 4096 Elf.tinyElf) tinyShdrs Symbolize.tinySymtab ⟨[], []⟩ where
  headers := by decide +kernel
  static := by decide +kernel
  dynamic := by decide +kernel
  sections := by
    unfold Spec.Elf.SectionsFit
    decide +kernel
  fits := Symbolize.tinySound.1.1
  names := ⟨fun s h _ => Symbolize.tinySound.1.2 s h, fun s h _ => Symbolize.tinySound.2.2 s h⟩
  home := by
    have h : tinyShdrs.length = 4 := by decide +kernel
    intro s hs _ _
    rw [h]
    rcases hs with hs | hs
    · simp [Symbolize.tinySymtab] at hs
      rcases hs with rfl | rfl <;> decide
    · cases hs

set_option maxRecDepth 20000 in
theorem exWorld_c : (exWorld false).disk.opened (ascii "/bin/c") = .ok (.ok Elf.tinyElf) := by decide +kernel

set_option maxRecDepth 20000 in
/-- `f` is found, `g` is not. -/
example : ((Inspector.new : Inspector Nat).lookup exTools (exWorld false) (.elf (ascii "/bin/c") false) [ascii "f", ascii "g"]).1 =
    .ok [[⟨ascii "f", 0x1000, some 0x10, .function, none, some (ascii "/bin/c")⟩], []] := by decide +kernel

/-- What the theorem says about it. -/
example : ∃ found, ((Inspector.new : Inspector Nat).lookup exTools (exWorld false) (.elf (ascii "/bin/c") false)
      [ascii "f", ascii "g"]).1 = .ok found ∧
    List.Forall₂ (NamedIn (some (ascii "/bin/c")) tinyShdrs Symbolize.tinySymtab ⟨[], []⟩) [ascii "f", ascii "g"] found :=
  (C83_elf_partial exTools (exWorld false) exWorld_c tinySymbols _ (by decide)).1

/-- All symbols. -/
example : ∃ first second, OneEach none tinyShdrs Symbolize.tinySymtab Own first ∧
    FromDynsym none tinyShdrs Symbolize.tinySymtab ⟨[], []⟩ Own second ∧
    ((Inspector.new : Inspector Nat).forEach exTools (exWorld false) (.elf (ascii "/bin/c") false)
      (fun l i => (l ++ [i], false)) []).1 = (.ok (), (Spec.Elf.feed (fun l i => (l ++ [i], false))
        (Spec.Elf.feed (fun l i => (l ++ [i], false)) [] first).1 second).1) := by
  obtain ⟨a, b, h1, h2, h3⟩ := C83_elf_all_partial exTools (exWorld false) exWorld_c tinySymbols
  exact ⟨a, b, h1, h2, h3 _ .new _ _ _⟩

/-- A file system with a Breakpad file. -/
def exNamesWorld : World Nat :=
  ⟨⟨fun p => if p = ascii "/s.sym" then .ok 0 else .error .notFound,
    fun m => if m = 0 then .ok (.ok (ascii Breakpad.dups)) else .error .notFound⟩, ⟨.ok, fun _ => false, fun _ => none⟩⟩

set_option maxRecDepth 20000 in
theorem dups_ok : ∃ rs, Spec.Breakpad.IsSymbolFile rs (ascii Breakpad.dups) := by
  obtain ⟨rs, h, _⟩ := Breakpad.C24_parse_sound (t := ascii Breakpad.dups) (f := Breakpad.load Breakpad.dups)
    (by decide +kernel)
  exact ⟨rs, h⟩

set_option maxRecDepth 20000 in
/-- Two functions have the name `g`. -/
example : ((Inspector.new : Inspector Nat).lookup exTools exNamesWorld (.breakpad (ascii "/s.sym")) [ascii "g"]).1 =
    .ok [[⟨ascii "g", 0x20, some 8, .function, none, none⟩, ⟨ascii "g", 0x30, some 8, .function, none, none⟩]] := by
  decide +kernel

set_option maxRecDepth 20000 in
example : ∃ rs found, Spec.Breakpad.IsSymbolFile rs (ascii Breakpad.dups) ∧
    ((Inspector.new : Inspector Nat).lookup exTools exNamesWorld (.breakpad (ascii "/s.sym")) [ascii "g"]).1 = .ok found ∧
    List.Forall₂ (fun name infos => ∃ listed, StableSorted (fun f => pairKey f.addr f.size)
        ((Spec.Breakpad.functions rs).filter (fun f => decide (f.name = name))) listed ∧
        List.Forall₂ TellsRecord listed infos) [ascii "g"] found := by
  obtain ⟨rs, h⟩ := dups_ok
  obtain ⟨found, h1, h2⟩ := C83_breakpad exTools exNamesWorld (path := ascii "/s.sym") (by decide +kernel) h [ascii "g"] _ .new
  exact ⟨rs, found, h, h1, h2⟩

set_option maxRecDepth 20000 in
theorem exDebug_parts {units : Units} (hu : parseUnits insertSorter exFile = .ok units) :
    DebugPartsOf Symbolize.exDebugTools (ascii "/bin/c") Elf.tinyElf ⟨units, none⟩ [Symbolize.tinyPhdr] (ascii "/bin/c")
      (.mem 4096 Elf.tinyElf) where
  sorted := units_sorted hu exFile_sorted
  entries := by
    intro x hx
    have := ((C36_kept _ _ _ hu).2 x.header).mp ⟨x, hx, rfl⟩
    rw [List.mem_singleton.mp this.1]
    exact ⟨_, _, exFile_entries, exFile_streamOk _⟩
  segments := ⟨by show (Elf.File.ofImage Elf.noCodec (.mem 4096 Elf.tinyElf)).phdrs = _; decide +kernel, by
    intro p hp _; simp at hp; subst hp; decide⟩
  source := rfl

set_option maxRecDepth 20000 in
theorem exDebug_alone : Elf.readDebugLink Elf.noCodec (.mem 4096 Elf.tinyElf) = .ok none := by decide +kernel

set_option maxRecDepth 20000 in
theorem exDebug_dwp : (exWorld false).disk.stat (ascii "/bin/c" ++ ascii ".dwp") = .error .notFound := by decide +kernel

set_option maxRecDepth 20000 in
/-- `foo` is a function of the debug information, `f` is only in the symbol table. -/
example : ((Inspector.new : Inspector Nat).lookup Symbolize.exDebugTools (exWorld false) (.elf (ascii "/bin/c") true)
      [exFoo, ascii "f"]).1 =
    .ok [[⟨exFoo, 0x1000, some 0x40, .function, some 0, some (ascii "/bin/c")⟩],
      [⟨ascii "f", 0x1000, some 0x10, .function, none, some (ascii "/bin/c")⟩]] := by decide +kernel

/-- What the theorems say about it. -/
example : ∃ (units : Units) (found : List (List CApi.SymInfo)),
    ((Inspector.new : Inspector Nat).lookup Symbolize.exDebugTools (exWorld false) (.elf (ascii "/bin/c") true)
      [exFoo, ascii "f"]).1 = .ok found ∧
    List.Forall₂ (NamedInDebug (ascii "/bin/c") [Symbolize.tinyPhdr] units.units (ascii "/bin/c") tinyShdrs
      Symbolize.tinySymtab ⟨[], []⟩) [exFoo, ascii "f"] found := by
  obtain ⟨units, hu⟩ := C36_accepted insertSorter _ exFile_ok
  obtain ⟨h1, u, h2, h3⟩ := orderly_alone Symbolize.exDebugTools exWorld_c exDebug_alone exDebug_dwp
  rw [show Symbolize.exDebugTools.load (.mem 4096 Elf.tinyElf) none = .ok units from hu] at h1
  obtain ⟨found, h4, h5⟩ := C83_debug_partial Symbolize.exDebugTools u h2 (Inspector.new : Inspector Nat) .new (exWorld false)
    h3 exWorld_c h1 (exDebug_parts hu) tinySymbols [exFoo, ascii "f"] (by decide)
  exact ⟨units, found, h4, h5⟩

example : ∃ (units : Units) (xs : List (DieUnit × (Nat × Entry))) (infos : List CApi.SymInfo),
    Spec.Dwarf.AllFunctions units.units xs ∧ EachNamed (ascii "/bin/c") [Symbolize.tinyPhdr] units.units xs infos ∧
    ((Inspector.new : Inspector Nat).forEach Symbolize.exDebugTools (exWorld false) (.elf (ascii "/bin/c") true)
      (fun l i => (l ++ [i], false)) []).1 = (.ok (), (Spec.Elf.feed (fun l i => (l ++ [i], false)) [] infos).1) := by
  obtain ⟨units, hu⟩ := C36_accepted insertSorter _ exFile_ok
  obtain ⟨h1, u, h2, h3⟩ := orderly_alone Symbolize.exDebugTools exWorld_c exDebug_alone exDebug_dwp
  rw [show Symbolize.exDebugTools.load (.mem 4096 Elf.tinyElf) none = .ok units from hu] at h1
  obtain ⟨xs, infos, h4, h5, h6⟩ := C83_debug_all_partial (S := List CApi.SymInfo) Symbolize.exDebugTools u h2 (exWorld false)
    h3 exWorld_c h1 (exDebug_parts hu) (by
      intro x hx du stream he y hy n hn
      have := ((C36_kept _ _ _ hu).2 x.header).mp ⟨x, hx, rfl⟩
      rw [List.mem_singleton.mp this.1] at he
      obtain ⟨rfl, rfl⟩ := entriesOf_unique he exFile_entries
      rw [exFile_functions, List.mem_singleton] at hy
      subst hy
      have := exFile_nameOf _ _ _ hn
      cases this
      decide)
  exact ⟨units, xs, infos, h4, h5, h6 _ .new _ _⟩

end Blazesym.Inspect
