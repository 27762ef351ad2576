import Verif.Session.VersionProps
import Verif.Session.AnswerSpec
import Verif.Session.StateProps
import Verif.Symbolize.ProcessProps
import Verif.Dwarf.OpenProps
import Verif.Elf.SymtabProps
import Verif.Dwarf.ResolverProps

/-! Property theorems C72 (what is reported for an address, from the contents of files). -/

set_option autoImplicit false

namespace Blazesym.Symbolize
open Blazesym.Util Blazesym.Maps Blazesym.Normalize Blazesym.Cache Blazesym.Spec Blazesym.Spec.Symbolize
open Blazesym.Dwarf hiding Resolver

variable {M K : Type}

/-! ### ELF files without debug information -/

theorem stands_of_lookup {σ : Sorter} {t : Elf.SymTab} {table : Elf.Table} {addr : Nat} {r : Elf.ResolvedSym}
    (h : t.lookup σ table addr .undefined = .ok (some r)) :
    ∃ s, StandsFor t table addr s r.name ∧ r.addr = s.value ∧ r.size = if s.size = 0 then none else some s.size := by
  obtain ⟨⟨s, h1, h2, h3, h4, h5, h6, h7, h8, h9⟩, h10⟩ := Elf.C04_lookup_sound σ t table addr .undefined r h
  refine ⟨s, ⟨h1, h2, h3, h4, h7 ▸ h10, h5, h6⟩, h7, ?_⟩
  split
  · exact h8 ‹_›
  · exact h9 ‹_›

theorem absent_of_lookup {σ : Sorter} {t : Elf.SymTab} {table : Elf.Table} {addr : Nat}
    (h : t.lookup σ table addr .undefined = .ok none) : Absent t table addr := by
  intro s name hs
  obtain ⟨i, hi⟩ := List.mem_iff_getElem?.mp hs.mem
  obtain ⟨h1, h2, _⟩ := Elf.C05_miss_condition σ t table addr .undefined h i s hi hs.nearest hs.defined
    hs.supported hs.covers
  exact ⟨h1, h2⟩

theorem looked_of_sym {env : Env} {find : SymFn} {addr : Nat} {s : ResolvedSym}
    (hf : find addr env.opts = .ok (.ok s)) (hle : s.addr ≤ addr) (hi : s.inlined = []) {out : Except Err Symbolized}
    (h : Looked env find addr out) :
    out = .ok (.sym ⟨shownName env.demangler env.demangle s.lang s.name, s.module, s.addr, addr - s.addr,
      s.size, s.codeInfo, []⟩) := by
  cases h with
  | sym s' name names h1 h2 h3 h4 =>
    rw [hf] at h1
    cases h1
    subst h3
    simp [hi]
  | reason r h1 => rw [hf] at h1; cases h1
  | error e h1 => rw [hf] at h1; cases h1
  | behind s' h1 h2 =>
    rw [hf] at h1
    cases h1
    omega

theorem looked_of_reason {env : Env} {find : SymFn} {addr : Nat} {r : Reason}
    (hf : find addr env.opts = .ok (.error r)) {out : Except Err Symbolized}
    (h : Looked env find addr out) : out = .ok (.unknown r) := by
  cases h with
  | sym s' name names h1 => rw [hf] at h1; cases h1
  | reason r h1 => rw [hf] at h1; cases h1; rfl
  | error e h1 => rw [hf] at h1; cases h1
  | behind s' h1 h2 => rw [hf] at h1; cases h1

theorem looked_of_error {env : Env} {find : SymFn} {addr : Nat} {e : Err}
    (hf : find addr env.opts = .error e) {out : Except Err Symbolized}
    (h : Looked env find addr out) : out = .error e := by
  cases h with
  | sym s' name names h1 => rw [hf] at h1; cases h1
  | reason r h1 => rw [hf] at h1; cases h1
  | error e h1 => rw [hf] at h1; cases h1; rfl
  | behind s' h1 h2 => rw [hf] at h1; cases h1

/-- How a name is shown. -/
def Env.shown (env : Env) (lang : SrcLang) (name : Bytes) : Bytes := shownName env.demangler env.demangle lang name

/-- What the lookup in the two tables yields. -/
theorem findSym_cases (t : Tools) (p : ElfParser) {phdrs : List Elf.Phdr} {symtab dynsym : Elf.SymTab}
    (hp : ElfParts t.codec p.image phdrs symtab dynsym) (addr : Nat) (opts : FindSymOpts) :
    (∃ e, p.findSym t addr opts = .error e ∧ (symtab.lookup t.σ .symtab addr .undefined = .error e ∨
      dynsym.lookup t.σ .dynsym addr .undefined = .error e)) ∨
    (∃ (r : Elf.ResolvedSym) (table : Elf.Table) (tab : Elf.SymTab),
      p.findSym t addr opts = .ok (.ok ⟨r.name, p.module, r.addr, r.size, .unknown, none, []⟩) ∧
      tab.lookup t.σ table addr .undefined = .ok (some r) ∧
      ((table = .symtab ∧ tab = symtab) ∨
        (table = .dynsym ∧ tab = dynsym ∧ symtab.lookup t.σ .symtab addr .undefined = .ok none))) ∨
    (symtab.lookup t.σ .symtab addr .undefined = .ok none ∧ dynsym.lookup t.σ .dynsym addr .undefined = .ok none ∧
      ((symtab.syms = [] ∧ p.findSym t addr opts = .ok (.error .missingSyms)) ∨
        (symtab.syms ≠ [] ∧ p.findSym t addr opts = .ok (.error .unknownAddr)))) := by
  obtain ⟨h1, h2, h3⟩ := Elf.C04_file_find_sym t.σ (p.file t) symtab dynsym hp.symbols hp.dynamic addr
  unfold ElfParser.findSym
  cases hs : symtab.lookup t.σ .symtab addr .undefined with
  | error e => left; exact ⟨e, by rw [h2 e hs], .inl rfl⟩
  | ok o =>
    cases o with
    | some r => right; left; exact ⟨r, .symtab, symtab, by rw [h1 r hs], hs, .inl ⟨rfl, rfl⟩⟩
    | none =>
      obtain ⟨h4, h5, h6⟩ := h3 hs
      cases hd : dynsym.lookup t.σ .dynsym addr .undefined with
      | error e => left; exact ⟨e, by rw [h5 e hd], .inr rfl⟩
      | ok o =>
        cases o with
        | some r => right; left; exact ⟨r, .dynsym, dynsym, by rw [h4 r hd], hd, .inr ⟨rfl, rfl, rfl⟩⟩
        | none =>
          right; right
          obtain ⟨h7, h8⟩ := h6 hd
          refine ⟨rfl, rfl, ?_⟩
          by_cases h0 : symtab.syms = []
          · left; exact ⟨h0, by rw [h7 h0]; rfl⟩
          · right; exact ⟨h0, by rw [h8 h0]; rfl⟩

theorem in_elf {env : Env} (t : Tools) {module : Bytes} {image : Elf.Backend} {phdrs : List Elf.Phdr}
    {symtab dynsym : Elf.SymTab} (hp : ElfParts t.codec image phdrs symtab dynsym) {addr : Nat} {out : Symbolized}
    (h : Looked env (ElfParser.findSym t ⟨some module, image⟩) addr (.ok out)) :
    InElf (env.shown .unknown) module symtab dynsym addr out := by
  rcases findSym_cases t ⟨some module, image⟩ hp addr env.opts with ⟨e, h1, _⟩ | ⟨r, table, tab, h1, h2, h3⟩ | ⟨h1, h2, h3⟩
  · have := looked_of_error h1 h
    cases this
  · obtain ⟨s, hs, h4, h5⟩ := stands_of_lookup h2
    have := looked_of_sym h1 (by simp only [h4]; exact hs.covers.1) rfl h
    cases this
    simp only [h4, h5]
    rcases h3 with ⟨rfl, rfl⟩ | ⟨rfl, rfl, h6⟩
    · exact .symtab s r.name hs
    · exact .dynsym s r.name (absent_of_lookup h6) hs
  · rcases h3 with ⟨h3, h4⟩ | ⟨h3, h4⟩
    · have := looked_of_reason h4 h
      cases this
      exact .missing h3 (absent_of_lookup h2)
    · have := looked_of_reason h4 h
      cases this
      exact .unknown h3 (absent_of_lookup h1) (absent_of_lookup h2)

theorem at_offset {env : Env} {r : Resolver} {file : Elf.File} {phdrs : List Elf.Phdr} (hf : file.phdrs = .ok phdrs)
    (hfit : Spec.Elf.SegmentsFit phdrs) (hr : ∀ off, r.toVirt off = file.fileOffsetToVirtOffset off)
    {at_ : Nat → Symbolized → Prop} (hat : ∀ addr out, Looked env r.find addr (.ok out) → at_ addr out)
    {off : Nat} {out : Symbolized} (h : LookedAt env r off (.ok out)) : AtOffset phdrs at_ off out := by
  by_cases hin : ∃ p ∈ phdrs, Spec.Elf.InFile p off
  · have : ∃ p, Spec.Elf.FirstInFile phdrs off p := by
      clear hf hfit
      induction phdrs with
      | nil => obtain ⟨p, hp, _⟩ := hin; cases hp
      | cons q t ih =>
        by_cases hq : Spec.Elf.InFile q off
        · exact ⟨q, [], t, rfl, hq, by simp⟩
        · obtain ⟨p, hp, hpi⟩ := hin
          rcases List.mem_cons.mp hp with rfl | hp
          · exact absurd hpi hq
          · obtain ⟨p', pre, post, h1, h2, h3⟩ := ih ⟨p, hp, hpi⟩
            refine ⟨p', q :: pre, post, by rw [h1]; rfl, h2, ?_⟩
            intro x hx
            rcases List.mem_cons.mp hx with rfl | hx
            · exact hq
            · exact h3 x hx
    obtain ⟨p, hp⟩ := this
    have hv := Elf.C09_virt_offset_found file phdrs hf hfit off p hp
    rw [← hr] at hv
    generalize hg : (Except.ok out : Except Err Symbolized) = o at h
    cases h with
    | found addr out' h1 h2 =>
      rw [hv] at h1
      cases h1
      subst hg
      exact .inside p out hp (hat _ _ h2)
    | nowhere h1 => rw [hv] at h1; cases h1
    | error e h1 => rw [hv] at h1; cases h1
  · have hno : ∀ p ∈ phdrs, ¬ Spec.Elf.InFile p off := fun p hp hpi => hin ⟨p, hp, hpi⟩
    have hv := Elf.C09_virt_offset_none file phdrs hf hfit off hno
    rw [← hr] at hv
    generalize hg : (Except.ok out : Except Err Symbolized) = o at h
    cases h with
    | found addr out' h1 h2 => rw [hv] at h1; cases h1
    | nowhere h1 => cases hg; exact .outside hno
    | error e h1 => rw [hv] at h1; cases h1

/-- What the plain resolver of an image reports for an offset. -/
theorem plain_at_offset {env : Env} (t : Tools) {module : Bytes} {image : Elf.Backend} {phdrs : List Elf.Phdr}
    {symtab dynsym : Elf.SymTab} (hp : ElfParts t.codec image phdrs symtab dynsym) {off : Nat} {out : Symbolized}
    (h : LookedAt env (elfAsResolver t (.elf ⟨some module, image⟩)) off (.ok out)) :
    AtOffset phdrs (InElf (env.shown .unknown) module symtab dynsym) off out :=
  at_offset (file := Elf.File.ofImage t.codec image) hp.segments hp.fits (fun _ => rfl) (fun _ _ => in_elf t hp) h

theorem envAt_elf {cfg : Settings M K} {w : World M} {v : Versions M}
    {maps : Nat → Except Err (List (Except Err Maps.Entry))} {path represented data : Bytes}
    (hc : HasContents w (v.elf path) data) :
    (envAt cfg w v maps).elf path represented false =
      .ok (elfAsResolver cfg.tools (.elf ⟨some represented, .mem 4096 data⟩)) := by
  obtain ⟨m, h1, h2⟩ := hc
  simp [envAt, elfAt, fileOf, ofVersion, h1, h2, elfParse]

/-- **C72** (partial: see `Absent`) Symbolizing a virtual offset of an ELF file reports, under the name of
the file, the symbol of its symbol table that stands for it, or else that of its table of dynamic symbols,
or why there is none; symbolizing an offset in the file reports what is found at the virtual offset where
the segment with this offset is loaded. -/
theorem C72_elf_partial (cfg : Settings M K) (w : World M) (v : Versions M)
    (maps : Nat → Except Err (List (Except Err Maps.Entry))) {path data : Bytes} (hc : HasContents w (v.elf path) data)
    {phdrs : List Elf.Phdr} {symtab dynsym : Elf.SymTab}
    (hp : ElfParts cfg.tools.codec (.mem 4096 data) phdrs symtab dynsym) (x : Nat) (out : Symbolized) :
    (symbolizeSingle (envAt cfg w v maps) (.elf path false) (.virtOffset x) = .ok out →
      InElf (shownBy cfg .unknown) path symtab dynsym x out) ∧
    (symbolizeSingle (envAt cfg w v maps) (.elf path false) (.fileOffset x) = .ok out →
      AtOffset phdrs (InElf (shownBy cfg .unknown) path symtab dynsym) x out) := by
  constructor
  · intro h
    exact in_elf (env := envAt cfg w v maps) cfg.tools hp
      ((C42_elf_virt_offset _ path false _ x _ (envAt_elf hc)).mp h)
  · intro h
    exact plain_at_offset (env := envAt cfg w v maps) cfg.tools hp
      ((C42_elf_file_offset _ path false _ x _ (envAt_elf hc)).mp h)

theorem notDispatched_of {cfg : Settings M K} {w : World M} {v : Versions M}
    {maps : Nat → Except Err (List (Except Err Maps.Entry))} {e : Maps.Entry} (h : NoDispatch cfg e) :
    NotDispatched (envAt cfg w v maps) e :=
  fun name hn d hd => .inr ⟨rfl, h d hd name hn⟩

/-- **C72** (partial: see `Absent`) Symbolizing an address of a process that is mapped from an ELF file
reports the symbol of that file that stands for the place the address is mapped from, under the name of
the file in the listing of mappings. -/
theorem C72_process_partial (cfg : Settings M K) (w : World M) (v : Versions M)
    (maps : Nat → Except Err (List (Except Err Maps.Entry))) (src : ProcessSource) (hs : src.debugSyms = false)
    {addr off : Nat} {e : Maps.Entry} (he : MappedAt maps src.pid addr e off) (hd : NoDispatch cfg e)
    {p : EntryPath} (hn : e.pathName = some (.path p)) (ha : ¬ IsArchive p.symbolicPath) {data : Bytes}
    (hc : HasContents w (v.elf (readFrom src p)) data) {phdrs : List Elf.Phdr} {symtab dynsym : Elf.SymTab}
    (hp : ElfParts cfg.tools.codec (.mem 4096 data) phdrs symtab dynsym) {out : Symbolized}
    (h : symbolizeSingle (envAt cfg w v maps) (.process src) (.absAddr addr) = .ok out) :
    AtOffset phdrs (InElf (shownBy cfg .unknown) p.symbolicPath symtab dynsym) off out := by
  obtain ⟨es, h1, h2, h3⟩ := he.listed
  have hoff := he.offset
  subst hoff
  have := ((C44_file (envAt cfg w v maps) src es addr e p h1 h2 h3 ⟨he.lower, he.upper⟩ he.fits (notDispatched_of hd)
    hn ⟨fun hx => ha (.inl hx), fun hx => ha (.inr hx)⟩).1 _ (.ok out)
      (by rw [hs]; exact envAt_elf hc)).mp h
  exact plain_at_offset cfg.tools hp this

/-! ### The vDSO -/

theorem firstVdso_some {items : List (Except Err Maps.Entry)} {r : Nat × Nat} :
    firstVdso items = .ok (some r) ↔
      ∃ (pre : List Maps.Entry) (e : Maps.Entry) (post : List (Except Err Maps.Entry)),
        items = pre.map .ok ++ .ok e :: post ∧ e.pathName = some (.component (ascii "[vdso]")) ∧
        (∀ x ∈ pre, x.pathName ≠ some (.component (ascii "[vdso]"))) ∧ r = (e.start, e.stop) := by
  induction items with
  | nil => simp [firstVdso]
  | cons x t ih =>
    cases x with
    | error err =>
      simp only [firstVdso]
      constructor
      · intro h; cases h
      · rintro ⟨pre, e, post, h1, _⟩
        cases pre <;> simp at h1
    | ok x =>
      simp only [firstVdso]
      split
      · rename_i hx
        constructor
        · intro h
          cases h
          exact ⟨[], x, t, rfl, hx, by simp, rfl⟩
        · rintro ⟨pre, e, post, h1, h2, h3, h4⟩
          cases pre with
          | nil => simp at h1; obtain ⟨rfl, _⟩ := h1; rw [h4]
          | cons y pre => simp at h1; obtain ⟨rfl, _⟩ := h1; exact absurd hx (h3 x (by simp))
      · rename_i hx
        rw [ih]
        constructor
        · rintro ⟨pre, e, post, h1, h2, h3, h4⟩
          refine ⟨x :: pre, e, post, by rw [h1]; rfl, h2, ?_, h4⟩
          intro y hy
          rcases List.mem_cons.mp hy with rfl | hy
          · exact hx
          · exact h3 y hy
        · rintro ⟨pre, e, post, h1, h2, h3, h4⟩
          cases pre with
          | nil => simp at h1; obtain ⟨rfl, _⟩ := h1; exact absurd h2 hx
          | cons y pre =>
            simp only [List.map_cons, List.cons_append, List.cons.injEq, Except.ok.injEq] at h1
            exact ⟨pre, e, post, h1.2, h2, fun z hz => h3 z (by simp [hz]), h4⟩

theorem firstVdso_none {es : List Maps.Entry} (h : ∀ x ∈ es, x.pathName ≠ some (.component (ascii "[vdso]"))) :
    firstVdso (es.map .ok) = .ok none := by
  induction es with
  | nil => rfl
  | cons x t ih =>
    simp only [List.map_cons, firstVdso]
    rw [if_neg (h x (by simp))]
    exact ih (fun y hy => h y (by simp [hy]))

/-- **C72** (partial: see `Absent`) Symbolizing an address in the vDSO reports the symbol of the vDSO in
the memory of the program: where it is mapped if the program symbolizes its own addresses, and where the
program's own vDSO is mapped for other processes. -/
theorem C72_vdso_partial (cfg : Settings M K) (w : World M) (v : Versions M)
    (maps : Nat → Except Err (List (Except Err Maps.Entry))) (src : ProcessSource) (hs : src.vdso = true)
    {addr off : Nat} {e : Maps.Entry} (he : MappedAt maps src.pid addr e off) (hd : NoDispatch cfg e)
    (hn : e.pathName = some (.component (ascii "[vdso]"))) {start stop : Nat}
    (hv : if src.pid = 0 then start = e.start ∧ stop = e.stop else OwnVdso w start stop)
    {phdrs : List Elf.Phdr} {symtab dynsym : Elf.SymTab}
    (hp : ElfParts cfg.tools.codec (.mem start (w.memory start (stop - start))) phdrs symtab dynsym) {out : Symbolized}
    (h : symbolizeSingle (envAt cfg w v maps) (.process src) (.absAddr addr) = .ok out) :
    AtOffset phdrs (InElf (shownBy cfg .unknown) (ascii "[vdso]") symtab dynsym) off out := by
  obtain ⟨es, h1, h2, h3⟩ := he.listed
  have hoff := he.offset
  subst hoff
  have hr : (envAt cfg w v maps).vdso src.pid e.start e.stop = .ok (elfAsResolver cfg.tools (.elf
      ⟨some (ascii "[vdso]"), .mem start (w.memory start (stop - start))⟩)) := by
    simp only [envAt, createVdsoParser]
    split at hv
    · rename_i h0
      obtain ⟨rfl, rfl⟩ := hv
      simp only [h0, if_true, vdsoParser]
    · rename_i h0
      obtain ⟨pre, e', post, k1, k2, k3, rfl, rfl⟩ := hv
      have := firstVdso_some.mpr ⟨pre, e', post, rfl, k2, k3, rfl⟩
      simp only [h0, if_false, findVdsoMaps, k1, this, vdsoParser]
  have := (((C44_component (envAt cfg w v maps) src es addr e _ h1 h2 h3 ⟨he.lower, he.upper⟩ he.fits
    (notDispatched_of hd) hn).1 ⟨hs, rfl⟩).1 _ (.ok out) hr).mp h
  exact plain_at_offset cfg.tools hp this

/-- **C72** (no vDSO) If the program itself has no vDSO, addresses in that of another process are an
error, as if a file was not found; if its own mappings cannot be read, that is the error. -/
theorem C72_no_vdso (cfg : Settings M K) (w : World M) (v : Versions M)
    (maps : Nat → Except Err (List (Except Err Maps.Entry))) (src : ProcessSource) (hs : src.vdso = true)
    (hpid : src.pid ≠ 0) {addr off : Nat} {e : Maps.Entry} (he : MappedAt maps src.pid addr e off)
    (hd : NoDispatch cfg e) (hn : e.pathName = some (.component (ascii "[vdso]"))) :
    (∀ own : List Maps.Entry, w.maps 0 = .ok (own.map .ok) →
      (∀ x ∈ own, x.pathName ≠ some (.component (ascii "[vdso]"))) →
      symbolizeSingle (envAt cfg w v maps) (.process src) (.absAddr addr) = .error .notFound) ∧
    (∀ (own : List Maps.Entry) (err : Err) (post : List (Except Err Maps.Entry)),
      w.maps 0 = .ok (own.map .ok ++ .error err :: post) →
      (∀ x ∈ own, x.pathName ≠ some (.component (ascii "[vdso]"))) →
      symbolizeSingle (envAt cfg w v maps) (.process src) (.absAddr addr) = .error err) ∧
    (∀ err, w.maps 0 = .error err →
      symbolizeSingle (envAt cfg w v maps) (.process src) (.absAddr addr) = .error err) := by
  obtain ⟨es, h1, h2, h3⟩ := he.listed
  have hfits := he.fits
  rw [he.offset] at hfits
  have key : ∀ err, (envAt cfg w v maps).vdso src.pid e.start e.stop = .error err →
      symbolizeSingle (envAt cfg w v maps) (.process src) (.absAddr addr) = .error err :=
    fun err => ((C44_component (envAt cfg w v maps) src es addr e _ h1 h2 h3 ⟨he.lower, he.upper⟩ hfits
      (notDispatched_of hd) hn).1 ⟨hs, rfl⟩).2 err
  refine ⟨fun own ho hno => key _ ?_, fun own err post ho hno => key _ ?_, fun err ho => key _ ?_⟩
  · simp only [envAt, createVdsoParser, hpid, if_false, findVdsoMaps, ho, firstVdso_none hno]
  · have : firstVdso (own.map .ok ++ .error err :: post) = .error err := by
      clear ho
      induction own with
      | nil => rfl
      | cons x t ih =>
        simp only [List.map_cons, List.cons_append, firstVdso]
        rw [if_neg (hno x (by simp))]
        exact ih (fun y hy => hno y (by simp [hy]))
    simp only [envAt, createVdsoParser, hpid, if_false, findVdsoMaps, ho, this]
  · simp only [envAt, createVdsoParser, hpid, if_false, findVdsoMaps, ho]

/-! ### Archives -/

theorem envAt_apk {cfg : Settings M K} {w : World M} {v : Versions M}
    {maps : Nat → Except Err (List (Except Err Maps.Entry))} {actual represented data : Bytes}
    (hc : HasContents w (v.apk actual) data) (hlen : data.length < 2 ^ 63) {off : Nat} {e : Zip.Entry}
    (hm : MemberAt data off e) {debugSyms : Bool} {r : Resolver}
    (hr : memberResolver cfg w actual represented debugSyms e.dataOffset e.path e.data = .ok r) :
    (envAt cfg w v maps).symbolizeApk actual represented off debugSyms =
      (envAt cfg w v maps).symbolizeOffset r (off - e.dataOffset) := by
  obtain ⟨m, h1, h2⟩ := hc
  obtain ⟨before, h3, h4, h5⟩ := hm
  have := (Zip.C27_resolver hlen h3 h4 h5 (memberResolver cfg w actual represented debugSyms) Resolver.toVirt).2 r hr
  have hapk : (envAt cfg w v maps).apk actual represented off debugSyms =
      (r.toVirt (off - e.dataOffset)).map (Option.map fun addr => (r.find, addr)) := by
    simp only [envAt, fileOf, ofVersion, h1, h2, this]
    cases r.toVirt (off - e.dataOffset) with
    | error e => rfl
    | ok o => cases o <;> rfl
  unfold Env.symbolizeApk Env.symbolizeOffset
  rw [hapk]
  cases r.toVirt (off - e.dataOffset) with
  | error e => rfl
  | ok o => cases o <;> rfl

theorem single_apk (env : Env) (path : Bytes) (debugSyms : Bool) (off : Nat) :
    symbolizeSingle env (.apk path debugSyms) (.fileOffset off) = env.symbolizeApk path path off debugSyms := by
  simp [symbolizeSingle, Input.map, symbolizeImpl, orElse_keep]

theorem single_archive {cfg : Settings M K} {w : World M} {v : Versions M}
    {maps : Nat → Except Err (List (Except Err Maps.Entry))} {src : ProcessSource} {addr off : Nat} {e : Maps.Entry}
    (he : MappedAt maps src.pid addr e off) (hd : NoDispatch cfg e) {p : EntryPath}
    (hn : e.pathName = some (.path p)) (ha : IsArchive p.symbolicPath) :
    symbolizeSingle (envAt cfg w v maps) (.process src) (.absAddr addr) =
      (envAt cfg w v maps).symbolizeApk (readFrom src p) p.symbolicPath off src.debugSyms := by
  obtain ⟨es, h1, h2, h3⟩ := he.listed
  have hfits := he.fits
  have hoff := he.offset
  subst hoff
  have key := C44_archive (envAt cfg w v maps) src es addr e p h1 h2 h3 ⟨he.lower, he.upper⟩ hfits
    (notDispatched_of hd) hn ha
  obtain ⟨k1, k2, k3⟩ := key
  rw [show (if src.mapFiles then p.mapsFile else p.symbolicPath) = readFrom src p from rfl] at k1 k2 k3
  unfold Env.symbolizeApk
  cases hx : (envAt cfg w v maps).apk (readFrom src p) p.symbolicPath (addr - e.start + e.offset) src.debugSyms with
  | error err => exact k3 err hx
  | ok o =>
    cases o with
    | none => exact k2 hx
    | some y =>
      obtain ⟨find, va⟩ := y
      exact (k1 find va _ hx).mpr ((C44_looked _ _ _ _).mp rfl)

theorem memberResolver_default {cfg : Settings M K} {w : World M} {actual represented : Bytes} {e : Zip.Entry}
    (hd : NoApkDispatch cfg actual e) (hslash : e.path.head? ≠ some 47) :
    memberResolver cfg w actual represented false e.dataOffset e.path e.data =
      .ok (elfAsResolver cfg.tools (.elf ⟨some (represented ++ ascii "!/" ++ e.path), .mem (4096 + e.dataOffset) e.data⟩)) := by
  have hname : Zip.createApkElfPath represented e.path = represented ++ ascii "!/" ++ e.path := by
    obtain ⟨rest, h1, h2, _⟩ := Zip.C27_path represented e.path
    rw [h1, h2 hslash]
    rfl
  have hdef : defaultApkDispatcher cfg w represented false e.dataOffset e.path e.data =
      .ok (elfAsResolver cfg.tools (.elf ⟨some (represented ++ ascii "!/" ++ e.path), .mem (4096 + e.dataOffset) e.data⟩)) := by
    simp [defaultApkDispatcher, hname]
  unfold memberResolver
  cases hx : cfg.apkDispatch with
  | none => exact hdef
  | some d => simp only [hd d hx, hdef]

/-- **C72** (partial: see `Absent`) Symbolizing an offset in an archive reports the symbol, of the member
that has this offset, that stands for its place in the member, under the names of the archive and the
member. The same goes for an address of a process that is mapped from there. -/
theorem C72_archive_partial (cfg : Settings M K) (w : World M) (v : Versions M)
    (maps : Nat → Except Err (List (Except Err Maps.Entry))) {actual data : Bytes}
    (hc : HasContents w (v.apk actual) data) (hlen : data.length < 2 ^ 63) {off : Nat} {e : Zip.Entry}
    (hm : MemberAt data off e) (hd : NoApkDispatch cfg actual e) (hslash : e.path.head? ≠ some 47)
    {phdrs : List Elf.Phdr} {symtab dynsym : Elf.SymTab}
    (hp : ElfParts cfg.tools.codec (.mem (4096 + e.dataOffset) e.data) phdrs symtab dynsym) (out : Symbolized) :
    (symbolizeSingle (envAt cfg w v maps) (.apk actual false) (.fileOffset off) = .ok out →
      AtOffset phdrs (InElf (shownBy cfg .unknown) (actual ++ ascii "!/" ++ e.path) symtab dynsym) (off - e.dataOffset) out) ∧
    (∀ (src : ProcessSource) (addr : Nat) (x : Maps.Entry) (p : EntryPath), src.debugSyms = false →
      MappedAt maps src.pid addr x off → NoDispatch cfg x → x.pathName = some (.path p) → IsArchive p.symbolicPath →
      readFrom src p = actual →
      symbolizeSingle (envAt cfg w v maps) (.process src) (.absAddr addr) = .ok out →
      AtOffset phdrs (InElf (shownBy cfg .unknown) (p.symbolicPath ++ ascii "!/" ++ e.path) symtab dynsym)
        (off - e.dataOffset) out) := by
  constructor
  · intro h
    rw [single_apk, envAt_apk hc hlen hm (memberResolver_default hd hslash)] at h
    exact plain_at_offset (env := envAt cfg w v maps) cfg.tools hp ((C44_looked_at _ _ _ _).mp h)
  · rintro src addr x p hs he hnd hn ha rfl h
    rw [single_archive he hnd hn ha, hs, envAt_apk hc hlen hm (memberResolver_default hd hslash)] at h
    exact plain_at_offset (env := envAt cfg w v maps) cfg.tools hp ((C44_looked_at _ _ _ _).mp h)

/-- **C72** (dispatched members) What a dispatcher for archives returns for a member is used for the
offsets in it. -/
theorem C72_archive_dispatched (cfg : Settings M K) (w : World M) (v : Versions M)
    (maps : Nat → Except Err (List (Except Err Maps.Entry))) {path data : Bytes}
    (hc : HasContents w (v.apk path) data) (hlen : data.length < 2 ^ 63) {off : Nat} {e : Zip.Entry}
    (hm : MemberAt data off e) (debugSyms : Bool) {d : Bytes → Nat → Bytes → Bytes → Except Err (Option Resolver)}
    (hd : cfg.apkDispatch = some d) {r : Resolver} (hr : d path e.dataOffset e.path e.data = .ok (some r))
    (out : Except Err Symbolized) :
    symbolizeSingle (envAt cfg w v maps) (.apk path debugSyms) (.fileOffset off) = out ↔
      LookedAt (envAt cfg w v maps) r (off - e.dataOffset) out := by
  rw [single_apk, envAt_apk hc hlen hm (r := r) (by simp only [memberResolver, hd, hr])]
  exact C44_looked_at _ _ _ _

/-- **C72** (no member) An offset that is in no member of an archive has no symbol. -/
theorem C72_archive_outside (cfg : Settings M K) (w : World M) (v : Versions M)
    (maps : Nat → Except Err (List (Except Err Maps.Entry))) {path data : Bytes}
    (hc : HasContents w (v.apk path) data) (debugSyms : Bool) {off : Nat} {all : List Zip.Entry}
    (hall : Zip.entries data = .ok (all.map .ok)) (hno : ∀ x ∈ all, ¬ Zip.Within x off) :
    symbolizeSingle (envAt cfg w v maps) (.apk path debugSyms) (.fileOffset off) = .ok (.unknown .invalidFileOffset) := by
  obtain ⟨m, h1, h2⟩ := hc
  have := ((Zip.C27_no_member data off (memberResolver cfg w path path debugSyms) Resolver.toVirt false
    (fun _ _ => .ok none) []).1 all hall hno).1
  rw [single_apk]
  simp [Env.symbolizeApk, envAt, fileOf, ofVersion, h1, h2, this, asFound]

/-! ### Perf maps -/

theorem for_same {fs fs' : List PerfMap.Function} (h : ∀ f, f ∈ fs ↔ f ∈ fs') (addr : Nat) (f : PerfMap.Function) :
    PerfMap.For fs addr f ↔ PerfMap.For fs' addr f := by
  simp only [PerfMap.For, Spec.Breakpad.IsLastStart, h]

theorem forall₂_line_unique {ls : List Bytes} {fs fs' : List PerfMap.Function}
    (h : List.Forall₂ Spec.PerfMap.Line ls fs) (h' : List.Forall₂ Spec.PerfMap.Line ls fs') : fs = fs' := by
  induction h generalizing fs' with
  | nil => cases h'; rfl
  | cons h1 _ ih =>
    cases h' with
    | cons h2 h3 =>
      have := (PerfMap.C28_line _ _).mpr h1
      rw [(PerfMap.C28_line _ _).mpr h2] at this
      rw [Except.ok.inj this, ih h3]

/-- **C72** (partial: functions at the end of the address space) Symbolizing an address in memory that is
not mapped from a file reports the function that the perf map of the process, if it has one, has for the
address. -/
theorem C72_perf_map_partial (cfg : Settings M K) (w : World M) (v : Versions M)
    (maps : Nat → Except Err (List (Except Err Maps.Entry))) (src : ProcessSource) (hs : src.perfMap = true)
    {addr off : Nat} {e : Maps.Entry} (he : MappedAt maps src.pid addr e off) (hn : e.pathName = none) :
    (∀ (data : Bytes) (fs : List PerfMap.Function), HasContents w (v.perfMap (perfMapPath w src.pid)) data →
      List.Forall₂ Spec.PerfMap.Line (Spec.PerfMap.lines data) fs →
      Spec.Breakpad.Fits (fun f : PerfMap.Function => f.addr) (fun f => f.size) fs addr →
      ∃ out, symbolizeSingle (envAt cfg w v maps) (.process src) (.absAddr addr) = .ok out ∧
        InPerfMap (shownBy cfg .unknown) fs addr out) ∧
    (v.perfMap (perfMapPath w src.pid) = .error .notFound →
      symbolizeSingle (envAt cfg w v maps) (.process src) (.absAddr addr) = .ok (.unknown .unknownAddr)) := by
  obtain ⟨es, h1, h2, h3⟩ := he.listed
  have hfits := he.fits
  rw [he.offset] at hfits
  obtain ⟨_, key⟩ := C44_anonymous (envAt cfg w v maps) src es addr e h1 h2 h3 ⟨he.lower, he.upper⟩ hfits hn
  obtain ⟨k1, k2, k3⟩ := key hs
  constructor
  · rintro data fs ⟨m, hm, hdata⟩ hlines hfit
    obtain ⟨out, hparse⟩ : ∃ out, PerfMap.parsePerfMap data = .ok out :=
      ⟨_, (PerfMap.C28_parse data _).mpr ⟨fs, hlines, sortByKey_stable _ _⟩⟩
    obtain ⟨fs', hl', hst⟩ := (PerfMap.C28_parse data out).mp hparse
    have hfs : fs' = fs := forall₂_line_unique hl' hlines
    subst hfs
    have hsame : ∀ f, f ∈ fs' ↔ f ∈ out := by
      intro f
      have := hst.2 (pairKey f.addr f.size)
      have h1 : f ∈ out ↔ f ∈ out.filter (fun e => decide (pairKey e.addr e.size = pairKey f.addr f.size)) := by simp
      have h2 : f ∈ fs' ↔ f ∈ fs'.filter (fun e => decide (pairKey e.addr e.size = pairKey f.addr f.size)) := by simp
      rw [h1, h2, this]
    have hfind : (envAt cfg w v maps).perfMap src.pid = .ok (some (PerfMap.findSym out)) := by
      have hm' : v.perfMap (PerfMap.path (resolvePid w src.pid)) = .ok m := hm
      simp only [envAt, fileOf, ofVersion, hm', hdata, hparse]
    have hsound := fun s => PerfMap.C28_lookup_sound (opts := (envAt cfg w v maps).opts) (sym := s) (addr := addr) hparse
    rcases PerfMap.C28_lookup_complete_partial hparse (addr := addr) (envAt cfg w v maps).opts
        (fun x hx => hfit x ((hsame x).mpr hx)) with ⟨_, sym, h⟩ | ⟨hno, h⟩
    · obtain ⟨f, hf, rfl⟩ := hsound sym h
      have hle : f.addr ≤ addr := by rcases hf.2.1 with h | h <;> omega
      have hl : Looked (envAt cfg w v maps) (PerfMap.findSym out) addr
          ((envAt cfg w v maps).symbolizeWith addr (PerfMap.findSym out)) := (C44_looked _ _ _ _).mp rfl
      have := looked_of_sym h hle rfl hl
      refine ⟨_, (k1 _ _ hfind).mpr (this ▸ hl), .found f ((for_same hsame addr f).mpr hf)⟩
    · refine ⟨_, (k1 _ _ hfind).mpr (.reason _ h), .unknown ?_⟩
      rintro ⟨f, hf⟩
      exact hno ⟨f, (for_same hsame addr f).mp hf⟩
  · intro hv
    refine k2 ?_
    have hv' : v.perfMap (PerfMap.path (resolvePid w src.pid)) = .error .notFound := hv
    simp only [envAt, fileOf, ofVersion, hv']

/-! ### Well-formed files have an answer -/

theorem lookup_total {σ : Sorter} {t : Elf.SymTab} (hs : Sound t) (table : Elf.Table) (addr : Nat) :
    ∃ o, t.lookup σ table addr .undefined = .ok o := by
  cases h : t.lookup σ table addr .undefined with
  | ok o => exact ⟨o, rfl⟩
  | error e =>
    exfalso
    obtain ⟨s, h1, h2, _, h3⟩ := Elf.C04_lookup_error σ t table addr .undefined e h
    obtain ⟨n, hn1, hn2⟩ := hs.2 s h1
    rcases h3 with ⟨_, h⟩ | ⟨_, _, _, _, h⟩ | ⟨_, _, _, _, n', h4, h5⟩
    · have := hs.1 s h1 h2
      omega
    · exact h n hn1
    · rw [Elf.nameAt_unique h4 hn1, hn2] at h5
      cases h5

theorem plain_total (env : Env) (t : Tools) (module : Bytes) {image : Elf.Backend} {phdrs : List Elf.Phdr}
    {symtab dynsym : Elf.SymTab} (hp : ElfParts t.codec image phdrs symtab dynsym) (h1 : Sound symtab)
    (h2 : Sound dynsym) (addr : Nat) : ∃ out, env.symbolizeWith addr (ElfParser.findSym t ⟨some module, image⟩) = .ok out := by
  have hl := (C44_looked env (ElfParser.findSym t ⟨some module, image⟩) addr _).mp rfl
  rcases findSym_cases t ⟨some module, image⟩ hp addr env.opts with ⟨e, h3, h4⟩ | ⟨r, table, tab, h3, h4, _⟩ | ⟨_, _, h3⟩
  · rcases h4 with h4 | h4
    · obtain ⟨o, ho⟩ := lookup_total (σ := t.σ) h1 .symtab addr
      rw [ho] at h4; cases h4
    · obtain ⟨o, ho⟩ := lookup_total (σ := t.σ) h2 .dynsym addr
      rw [ho] at h4; cases h4
  · obtain ⟨s, hs, h5, _⟩ := stands_of_lookup h4
    exact ⟨_, looked_of_sym h3 (by simp only [h5]; exact hs.covers.1) rfl hl⟩
  · rcases h3 with ⟨_, h3⟩ | ⟨_, h3⟩ <;> exact ⟨_, looked_of_reason h3 hl⟩

theorem plain_offset_total (env : Env) (t : Tools) (module : Bytes) {image : Elf.Backend} {phdrs : List Elf.Phdr}
    {symtab dynsym : Elf.SymTab} (hp : ElfParts t.codec image phdrs symtab dynsym) (h1 : Sound symtab)
    (h2 : Sound dynsym) (off : Nat) :
    ∃ out, env.symbolizeOffset (elfAsResolver t (.elf ⟨some module, image⟩)) off = .ok out := by
  unfold Env.symbolizeOffset
  cases hv : (elfAsResolver t (.elf ⟨some module, image⟩)).toVirt off with
  | ok o =>
    cases o with
    | none => exact ⟨_, rfl⟩
    | some addr => exact plain_total env t module hp h1 h2 addr
  | error e =>
    exfalso
    rcases Elf.C09_virt_offset_error (Elf.File.ofImage t.codec image) off e hv with h | ⟨_, ph, h, p, hpm, hpt, hpo⟩
    · rw [hp.segments] at h; cases h
    · rw [hp.segments] at h
      cases h
      have := hp.fits p hpm hpt
      omega

/-- **C72** (well-formed files) If the symbols of an ELF file have names and end within the address space,
there is an answer for every offset in it, and for every address of a process that is mapped from it. -/
theorem C72_total (cfg : Settings M K) (w : World M) (v : Versions M)
    (maps : Nat → Except Err (List (Except Err Maps.Entry))) {path data : Bytes} (hc : HasContents w (v.elf path) data)
    {phdrs : List Elf.Phdr} {symtab dynsym : Elf.SymTab}
    (hp : ElfParts cfg.tools.codec (.mem 4096 data) phdrs symtab dynsym) (h1 : Sound symtab) (h2 : Sound dynsym)
    (x : Nat) :
    (∃ out, symbolizeSingle (envAt cfg w v maps) (.elf path false) (.virtOffset x) = .ok out) ∧
    (∃ out, symbolizeSingle (envAt cfg w v maps) (.elf path false) (.fileOffset x) = .ok out) ∧
    ∀ (src : ProcessSource) (e : Maps.Entry) (off : Nat) (p : EntryPath), src.debugSyms = false →
      MappedAt maps src.pid x e off → NoDispatch cfg e → e.pathName = some (.path p) → ¬ IsArchive p.symbolicPath →
      readFrom src p = path →
      ∃ out, symbolizeSingle (envAt cfg w v maps) (.process src) (.absAddr x) = .ok out := by
  refine ⟨?_, ?_, ?_⟩
  · obtain ⟨out, ho⟩ := plain_total (envAt cfg w v maps) cfg.tools path hp h1 h2 x
    exact ⟨out, (C42_elf_virt_offset _ path false _ x _ (envAt_elf hc)).mpr ((C44_looked _ _ _ _).mp ho)⟩
  · obtain ⟨out, ho⟩ := plain_offset_total (envAt cfg w v maps) cfg.tools path hp h1 h2 x
    exact ⟨out, (C42_elf_file_offset _ path false _ x _ (envAt_elf hc)).mpr ((C44_looked_at _ _ _ _).mp ho)⟩
  · rintro src e off p hs he hd hn ha rfl
    obtain ⟨es, k1, k2, k3⟩ := he.listed
    have hoff := he.offset
    subst hoff
    obtain ⟨out, ho⟩ := plain_offset_total (envAt cfg w v maps) cfg.tools p.symbolicPath hp h1 h2 (x - e.start + e.offset)
    refine ⟨out, ((C44_file (envAt cfg w v maps) src es x e p k1 k2 k3 ⟨he.lower, he.upper⟩ he.fits
      (notDispatched_of hd) hn ⟨fun hx => ha (.inl hx), fun hx => ha (.inr hx)⟩).1 _ (.ok out)
        (by rw [hs]; exact envAt_elf hc)).mpr ((C44_looked_at _ _ _ _).mp ho)⟩

/-! ### ELF files with debug information -/

theorem zip_names (shown : Bytes → Bytes) (fns : List InlinedFn) :
    List.zipWith (fun (n : Bytes) (f : InlinedFn) => (⟨n, f.codeInfo⟩ : InlinedFn)) (fns.map fun f => shown f.name) fns =
      fns.map fun f => { name := shown f.name, codeInfo := f.codeInfo } := by
  induction fns with
  | nil => rfl
  | cons f t ih => simp [ih]

theorem wantedBy_eq {M K : Type} (cfg : Settings M K) : findSymOpts cfg.codeInfo cfg.inlinedFns = wantedBy cfg := by
  unfold findSymOpts wantedBy
  cases cfg.codeInfo <;> cases cfg.inlinedFns <;> rfl

theorem in_debug_info {env : Env} (t : Tools) {module : Bytes} {image : Elf.Backend} {d : DebugData} {s : Sections}
    (hu : parseUnits t.σ s = .ok d.units) (hs : Spec.Dwarf.HeadersSorted s) (hap : Spec.Dwarf.AllInOrder s) {addr : Nat}
    (ha : addr + 1 < 2 ^ 64) {hd : Header} {du : DieUnit} {x : Nat × Dwarf.Entry}
    (hun : Spec.Dwarf.UnitFor s addr hd) (hx : Spec.Dwarf.FunctionFor hd addr du x) {out : Symbolized}
    (h : Looked env (ElfResolver.findSym t (.dwarf ⟨some module, image⟩ d)) addr (.ok out)) :
    InDebugInfo env.shown env.opts module d.units.units s addr out := by
  have key : ∀ res, ElfResolver.findSym t (.dwarf ⟨some module, image⟩ d) addr env.opts = .ok res → _ :=
    fun res hr => C64_function_partial t.σ s (d.resolver t ⟨some module, image⟩) hu hs hap addr ha env.opts hd du x
      hun hx res hr
  generalize hg : (Except.ok out : Except Err Symbolized) = o at h
  cases h with
  | sym y name names h1 h2 h3 h4 =>
    obtain ⟨sym, hd', d', x', nm, k1, k2, k3, k4, k5, k6, kl, k7, k8⟩ := key _ h1
    cases k1
    cases hg
    refine ⟨_, rfl, hd', d', x', nm, _, k2, k3, k4, kl, ?_, k6, by simp only; omega, ?_, ?_⟩
    · simp only [h3, k5, Env.shown]
    · intro hr
      obtain ⟨⟨r, r1, r2, r3⟩, _⟩ := k7 hr
      exact ⟨r, r1, r2, r3⟩
    · intro ho
      exact ⟨_, k8 ho, by rw [h4]; exact zip_names _ _⟩
  | reason r h1 =>
    obtain ⟨sym, hd', d', x', nm, k1, _⟩ := key _ h1
    cases k1
  | error e h1 => cases hg
  | behind y h1 h2 => cases hg

theorem envAt_debug {cfg : Settings M K} {w : World M} {v : Versions M}
    {maps : Nat → Except Err (List (Except Err Maps.Entry))} {path represented data : Bytes}
    (hc : HasContents w (v.elf path) data) {d : DebugData}
    (hd : (fromParser cfg.tools w.files cfg.debugDirs ⟨some represented, .mem 4096 data⟩).eval
      (fun q => elfAt w v.elf q q) = .ok d) :
    (envAt cfg w v maps).elf path represented true =
      .ok (elfAsResolver cfg.tools (.dwarf ⟨some represented, .mem 4096 data⟩ d)) := by
  obtain ⟨m, h1, h2⟩ := hc
  have : elfAt w v.elf path represented = .ok ⟨some represented, .mem 4096 data⟩ := by
    simp [elfAt, fileOf, ofVersion, h1, h2, elfParse]
  simp [envAt, debugAt, this, hd]

/-- **C72** (debug information; partial: functions that are not nested, and C66 says what debug
information `d` belongs to the file) If debug information is to be used and has a function for a virtual
offset of an ELF file, such a function is reported, under the name of the file, also for addresses of
processes that are mapped from there. -/
theorem C72_debug_partial (cfg : Settings M K) (w : World M) (v : Versions M)
    (maps : Nat → Except Err (List (Except Err Maps.Entry))) {path represented data : Bytes}
    (hc : HasContents w (v.elf path) data) {phdrs : List Elf.Phdr} {symtab dynsym : Elf.SymTab}
    (hp : ElfParts cfg.tools.codec (.mem 4096 data) phdrs symtab dynsym) {d : DebugData}
    (hd : (fromParser cfg.tools w.files cfg.debugDirs ⟨some represented, .mem 4096 data⟩).eval
      (fun q => elfAt w v.elf q q) = .ok d) {s : Sections}
    (hu : parseUnits cfg.tools.σ s = .ok d.units) (hs : Spec.Dwarf.HeadersSorted s) (hap : Spec.Dwarf.AllInOrder s)
    {addr : Nat} (ha : addr + 1 < 2 ^ 64) {hdr : Header} {du : DieUnit} {x : Nat × Dwarf.Entry}
    (hun : Spec.Dwarf.UnitFor s addr hdr) (hx : Spec.Dwarf.FunctionFor hdr addr du x) (out : Symbolized) :
    (path = represented → symbolizeSingle (envAt cfg w v maps) (.elf path true) (.virtOffset addr) = .ok out →
      InDebugInfo (shownBy cfg) (wantedBy cfg) path d.units.units s addr out) ∧
    (∀ (src : ProcessSource) (e : Maps.Entry) (a off : Nat) (p : EntryPath) (ph : Elf.Phdr), src.debugSyms = true →
      MappedAt maps src.pid a e off → NoDispatch cfg e → e.pathName = some (.path p) → ¬ IsArchive p.symbolicPath →
      readFrom src p = path → p.symbolicPath = represented →
      Spec.Elf.FirstInFile phdrs off ph → addr = ph.vaddr + (off - ph.offset) →
      symbolizeSingle (envAt cfg w v maps) (.process src) (.absAddr a) = .ok out →
      InDebugInfo (shownBy cfg) (wantedBy cfg) p.symbolicPath d.units.units s addr out) := by
  constructor
  · rintro rfl h
    rw [← wantedBy_eq]
    exact in_debug_info (env := envAt cfg w v maps) cfg.tools hu hs hap ha hun hx
      ((C42_elf_virt_offset _ path true _ addr _ (envAt_debug hc hd)).mp h)
  · rintro src e a off p ph hds he hnd hn har rfl rfl hph rfl h
    obtain ⟨es, k1, k2, k3⟩ := he.listed
    have hoff := he.offset
    subst hoff
    have hl := ((C44_file (envAt cfg w v maps) src es a e p k1 k2 k3 ⟨he.lower, he.upper⟩ he.fits
      (notDispatched_of hnd) hn ⟨fun hx => har (.inl hx), fun hx => har (.inr hx)⟩).1 _ (.ok out)
        (by rw [hds]; exact envAt_debug hc hd)).mp h
    have hv : (elfAsResolver cfg.tools (.dwarf ⟨some p.symbolicPath, .mem 4096 data⟩ d)).toVirt
        (a - e.start + e.offset) = .ok (some (ph.vaddr + (a - e.start + e.offset - ph.offset))) :=
      Elf.C09_virt_offset_found (Elf.File.ofImage cfg.tools.codec (.mem 4096 data)) phdrs hp.segments hp.fits _ ph hph
    generalize hg : (Except.ok out : Except Err Symbolized) = o at hl
    cases hl with
    | found va out' h1 h2 =>
      rw [hv] at h1
      cases h1
      subst hg
      rw [← wantedBy_eq]
      exact in_debug_info (env := envAt cfg w v maps) cfg.tools hu hs hap ha hun hx h2
    | nowhere h1 => rw [hv] at h1; cases h1
    | error e h1 => cases hg

/-! ### The same with caches -/

/-- **C72** (partial: orderly histories; see `Absent`) A symbolizer reports, whatever it was used for
before, for an offset in an ELF file the symbol that stands for it in the version of the file it uses, and
for an address of a process the symbol that stands for the place the address is mapped from. -/
theorem C72_caching_partial [DecidableEq M] {cfg : Settings M K} (hb : DispatchByName cfg) {k : Known M}
    (hlen : ∀ m data, k.contents m = .ok (.ok data) → data.length < 2 ^ 63)
    {s : State M K} (hr : Reachable cfg (Orderly cfg k) s) (w : World M) {path data : Bytes}
    (hc : HasContents w ((versions s w).elf path) data) {phdrs : List Elf.Phdr} {symtab dynsym : Elf.SymTab}
    (hp : ElfParts cfg.tools.codec (.mem 4096 data) phdrs symtab dynsym) (x : Nat) (out : Symbolized) :
    (Orderly cfg k s w (.symbolizeSingle (.elf path false) (.virtOffset x)) →
      (s.symbolizeSingle cfg w (.elf path false) (.virtOffset x)).1 = .ok out →
      InElf (shownBy cfg .unknown) path symtab dynsym x out) ∧
    (Orderly cfg k s w (.symbolizeSingle (.elf path false) (.fileOffset x)) →
      (s.symbolizeSingle cfg w (.elf path false) (.fileOffset x)).1 = .ok out →
      AtOffset phdrs (InElf (shownBy cfg .unknown) path symtab dynsym) x out) ∧
    ∀ (src : ProcessSource) (e : Maps.Entry) (off : Nat) (p : EntryPath), src.debugSyms = false →
      MappedAt (mapsOf w s.vmas) src.pid x e off → NoDispatch cfg e → e.pathName = some (.path p) →
      ¬ IsArchive p.symbolicPath → readFrom src p = path →
      Orderly cfg k s w (.symbolizeSingle (.process src) (.absAddr x)) →
      (s.symbolizeSingle cfg w (.process src) (.absAddr x)).1 = .ok out →
      AtOffset phdrs (InElf (shownBy cfg .unknown) p.symbolicPath symtab dynsym) off out := by
  refine ⟨fun ho h => ?_, fun ho h => ?_, ?_⟩
  · rw [C68_single_partial hb hlen hr w _ (by intro ks hk; cases hk) _ ho] at h
    exact (C72_elf_partial cfg w _ _ hc hp x out).1 h
  · rw [C68_single_partial hb hlen hr w _ (by intro ks hk; cases hk) _ ho] at h
    exact (C72_elf_partial cfg w _ _ hc hp x out).2 h
  · rintro src e off p hs he hd hn ha rfl ho h
    rw [C68_single_partial hb hlen hr w _ (by intro ks hk; cases hk) _ ho] at h
    exact C72_process_partial cfg w _ _ src hs he hd hn ha hc hp h

/-! ### Examples -/

/-- The segment and the symbols of `tinyElf`. -/
def tinyPhdr : Elf.Phdr := ⟨1, 5, 0, 0x1000, 0x1000, 120, 120, 0x1000⟩
def tinySym : Elf.Sym := ⟨1, 0x12, 0, 1, 0x1000, 0x10⟩
def tinySymtab : Elf.SymTab := ⟨[⟨0, 0, 0, 0, 0, 0⟩, tinySym], [0, 102, 0]⟩

set_option maxRecDepth 20000 in
theorem tinyParts (start : Nat) (h : start ∈ [4096, 4128, 0x7f0000]) :
    ElfParts exSettings.tools.codec (.mem start Elf.tinyElf) [tinyPhdr] tinySymtab ⟨[], []⟩ := by
  simp only [List.mem_cons, List.not_mem_nil, or_false] at h
  rcases h with rfl | rfl | rfl <;>
  exact ⟨by decide +kernel, by intro p hp _; simp at hp; subst hp; decide, by decide +kernel, by decide +kernel⟩

theorem tinyStands : StandsFor tinySymtab .symtab 0x1008 tinySym (ascii "f") where
  mem := by decide
  defined := by simp [Spec.Elf.Defined, tinySym]
  supported := .inr (.inr (.inl rfl))
  covers := by simp [Spec.Elf.Covers, tinySym]
  nearest := ⟨by decide, ⟨tinySym, by decide, .inr (.inr (.inl rfl)), rfl⟩, by
    intro s hs _ _; simp [tinySymtab] at hs; rcases hs with rfl | rfl <;> decide⟩
  named := ⟨[], by decide, by decide⟩
  utf8 := by decide

theorem tinySound : Sound tinySymtab ∧ Sound ⟨[], []⟩ := by
  refine ⟨⟨?_, ?_⟩, ⟨?_, ?_⟩⟩
  · intro s hs _; simp [tinySymtab] at hs; rcases hs with rfl | rfl <;> decide
  · intro s hs
    simp [tinySymtab] at hs
    rcases hs with rfl | rfl
    · exact ⟨[], ⟨[102, 0], by decide, by decide⟩, by decide⟩
    · exact ⟨ascii "f", ⟨[], by decide, by decide⟩, by decide⟩
  · intro s hs; cases hs
  · intro s hs; cases hs

/-- An archive with `tinyElf` as its only member, at offset 32, called `a`. -/
def tinyZip : Bytes :=
  [80, 75, 3, 4, 10, 0, 0, 0, 0, 0, 0, 0, 0, 0, 0, 0, 0, 0, 208, 1, 0, 0, 208, 1, 0, 0, 1, 0, 1, 0, 97, 0] ++
  Elf.tinyElf ++
  [80, 75, 1, 2, 10, 0, 10, 0, 0, 0, 0, 0, 0, 0, 0, 0, 0, 0, 0, 0, 208, 1, 0, 0, 208, 1, 0, 0, 1, 0, 0, 0, 0, 0,
    0, 0, 0, 0, 0, 0, 0, 0, 0, 0, 0, 0, 97] ++
  [80, 75, 5, 6, 0, 0, 0, 0, 1, 0, 1, 0, 47, 0, 0, 0, 240, 1, 0, 0, 0, 0]

/-- A process with a mapping of each kind. -/
def exMapsText : Bytes :=
  ascii "400000-401000 r-xp 00000000 00:00 1 /bin/c\n500000-501000 r-xp 00000000 00:00 0 \n" ++
  ascii "600000-601000 r-xp 00000000 00:00 2 /bin/z.apk\n7f0000-7f1000 r-xp 00000000 00:00 0 [vdso]\n"

def exRich : World Nat :=
  { exHost false with
    disk := ⟨fun p => if p = ascii "/bin/c" then .ok 0 else if p = ascii "/bin/z.apk" then .ok 1
      else if p = ascii "/tmp/perf-7.map" then .ok 2 else .error .notFound,
      fun m => if m = 0 then .ok (.ok Elf.tinyElf) else if m = 1 then .ok (.ok tinyZip)
        else if m = 2 then .ok (.ok (ascii "500000 10 g\n")) else .error .notFound⟩
    procMaps := fun _ => .ok exMapsText
    memory := fun _ _ => Elf.tinyElf }

def exEntries : List Maps.Entry :=
  [⟨0x400000, 0x401000, 5, 0, some (.path ⟨ascii "/proc/7/map_files/400000-401000", ascii "/bin/c"⟩), none⟩,
   ⟨0x500000, 0x501000, 5, 0, none, none⟩,
   ⟨0x600000, 0x601000, 5, 0, some (.path ⟨ascii "/proc/7/map_files/600000-601000", ascii "/bin/z.apk"⟩), none⟩,
   ⟨0x7f0000, 0x7f1000, 5, 0, some (.component (ascii "[vdso]")), none⟩]

set_option maxRecDepth 20000 in
theorem exRich_maps : exRich.maps 7 = .ok (exEntries.map .ok) := by decide +kernel

theorem exEntries_listing : Blazesym.Spec.Normalize.Listing exEntries := by
  constructor
  · decide
  · decide

/-- An address in each of the mappings, and where it is mapped from. -/
theorem exMapped : ∀ x ∈ [(0, 0x400008, 8), (1, 0x500008, 8), (2, 0x600028, 40), (3, 0x7f0008, 8)],
    ∃ e, exEntries[x.1]? = some e ∧ MappedAt exRich.maps 7 x.2.1 e x.2.2 := by
  intro x hx
  simp only [List.mem_cons, List.not_mem_nil, or_false] at hx
  rcases hx with rfl | rfl | rfl | rfl
  · exact ⟨_, rfl, ⟨⟨exEntries, exRich_maps, exEntries_listing, by decide⟩, by decide, by decide, by decide, by decide⟩⟩
  · exact ⟨_, rfl, ⟨⟨exEntries, exRich_maps, exEntries_listing, by decide⟩, by decide, by decide, by decide, by decide⟩⟩
  · exact ⟨_, rfl, ⟨⟨exEntries, exRich_maps, exEntries_listing, by decide⟩, by decide, by decide, by decide, by decide⟩⟩
  · exact ⟨_, rfl, ⟨⟨exEntries, exRich_maps, exEntries_listing, by decide⟩, by decide, by decide, by decide, by decide⟩⟩

example (e : Maps.Entry) : NoDispatch exSettings e := by intro d hd; cases hd
example (e : Zip.Entry) : NoApkDispatch exSettings (ascii "/bin/z.apk") e := by intro d hd; cases hd
example : HasContents exRich ((present exRich).elf (ascii "/bin/c")) Elf.tinyElf := ⟨0, by decide, rfl⟩
example : HasContents exRich ((present exRich).apk (ascii "/bin/z.apk")) tinyZip := ⟨1, by decide, rfl⟩
example : HasContents exRich ((present exRich).perfMap (perfMapPath exRich 7)) (ascii "500000 10 g\n") :=
  ⟨2, by decide +kernel, rfl⟩

set_option maxRecDepth 20000 in
theorem tinyZip_member : MemberAt tinyZip 40 ⟨0, ascii "a", 32, Elf.tinyElf⟩ :=
  ⟨[], ⟨[], by decide +kernel⟩, by decide, by intro x hx; cases hx⟩

/-- What the theorems say about the examples: the symbol `f` is reported for the second half of its code,
in the file, in the member of the archive and in the vDSO. -/
example : AtOffset [tinyPhdr] (InElf id (ascii "/bin/c") tinySymtab ⟨[], []⟩) 8
    (.sym ⟨ascii "f", some (ascii "/bin/c"), 0x1000, 8, some 16, none, []⟩) :=
  .inside tinyPhdr _ ⟨[], [], rfl, ⟨by decide, by decide⟩, by intro p hp; cases hp⟩ (.symtab tinySym (ascii "f") tinyStands)

/-- The name and the module that are reported. -/
def nameAndModule : Except Err Symbolized → Option (Bytes × Option Bytes)
  | .ok (.sym x) => some (x.name, x.module)
  | _ => none

set_option maxRecDepth 20000 in
/-- And what is reported. -/
example :
    [0x400008, 0x500008, 0x600028, 0x7f0008].map (fun addr => nameAndModule (symbolizeSingle
      (envAt exSettings exRich (present exRich) exRich.maps) (.process ⟨7, false, true, false, true⟩) (.absAddr addr))) =
    [some (ascii "f", some (ascii "/bin/c")), some (ascii "g", none), some (ascii "f", some (ascii "/bin/z.apk!/a")),
      some (ascii "f", some (ascii "[vdso]"))] := by
  decide +kernel

end Blazesym.Symbolize
