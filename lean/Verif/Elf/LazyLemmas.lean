import Verif.Elf.LazySpec

/-! Lemmas about the ELF parser with the parts it keeps. -/

set_option autoImplicit false

namespace Blazesym.Cache

variable {S α β : Type}

/-- The result of a computation is the same in all states that satisfy an invariant, and it keeps the invariant. -/
def Computes (I : S → Prop) (a : Act S α) (r : Except Err α) : Prop := ∀ (s : S), I s → (a s).1 = r ∧ I (a s).2

theorem Computes.lift {I : S → Prop} (r : Except Err α) : Computes I (Act.lift r) r := fun _ h => ⟨rfl, h⟩

theorem Computes.bind {I : S → Prop} {a : Act S α} {r : Except Err α} {f : α → Act S β} {g : α → Except Err β}
    (h : Computes I a r) (hf : ∀ (x : α), r = .ok x → Computes I (f x) (g x)) : Computes I (a >>= f) (r >>= g) := by
  intro s hs
  obtain ⟨h1, h2⟩ := h s hs
  show (Act.bind a f s).1 = _ ∧ I (Act.bind a f s).2
  unfold Act.bind
  cases ha : a s with
  | mk r' s' =>
    rw [ha] at h1 h2
    simp only at h1 h2
    subst h1
    cases r' with
    | error e => exact ⟨rfl, h2⟩
    | ok x => exact hf x rfl s' h2

/-- The same, for something that is computed and not used by the specification. -/
theorem Computes.skip {I : S → Prop} {a : Act S α} {x : α} {f : α → Act S β} {r : Except Err β}
    (h : Computes I a (.ok x)) (hf : Computes I (f x) r) : Computes I (a >>= f) r :=
  Computes.bind (g := fun _ => r) h fun y hy => by cases hy; exact hf

end Blazesym.Cache

namespace Blazesym.Elf.Lazy
open Blazesym.Util Blazesym.Cache

variable {α : Type}

theorem getOrTryInit_computes {I : Cells → Prop} {get : Cells → Option α} {set : Cells → α → Cells} {f : Act Cells α}
    {r : Except Err α} (hget : ∀ (s : Cells) (v : α), I s → get s = some v → r = .ok v)
    (hset : ∀ (s : Cells) (v : α), I s → r = .ok v → I (set s v)) (hf : Computes I f r) :
    Computes I (getOrTryInit get set f) r := by
  intro s hs
  unfold getOrTryInit
  cases hg : get s with
  | some v => exact ⟨(hget s v hs hg).symm, hs⟩
  | none =>
    obtain ⟨h1, h2⟩ := hf s hs
    cases hr : f s with
    | mk r' s' =>
      rw [hr] at h1 h2
      simp only at h1 h2
      subst h1
      cases r' with
      | error e => exact ⟨rfl, h2⟩
      | ok v =>
        simp only
        cases hg' : get s' with
        | some v' => exact ⟨(hget s' v' h2 hg').symm, h2⟩
        | none => exact ⟨rfl, hset s' v h2 rfl⟩

/-- What a table keeps is derived from it. -/
structure TableSound (σ : Sorter) (names : SymTab → Except Err (List (SymName × Nat))) (t : SymCells) : Prop where
  byAddr : ∀ (l : List Nat), t.byAddr = some l → l = createByAddrIdx σ t.tab.syms
  str2sym : ∀ (l : List (SymName × Nat)), t.str2sym = some l → names t.tab = .ok l

/-- The names of the dynamic table that are kept. -/
def dynNames (σ : Sorter) (c : Codec) (b : Backend) (dynsym : SymTab) : Except Err (List (SymName × Nat)) := do
  let symtab ← Elf.parseSymtab c b
  str2dynsym σ symtab dynsym

/-- What is kept is what is in the file. -/
structure Sound (σ : Sorter) (c : Codec) (b : Backend) (s : Cells) : Prop where
  ehdr : ∀ (v : EhdrExt), s.ehdr = some v → parseEhdr b = .ok v
  shdrs : ∀ (v : List Shdr), s.shdrs = some v → Elf.parseShdrs b = .ok v
  shstrtab : ∀ (v : Bytes), s.shstrtab = some v → Elf.parseShstrtab b = .ok v
  phdrs : ∀ (v : List Phdr), s.phdrs = some v → Elf.parsePhdrs b = .ok v
  symtab : ∀ (t : SymCells), s.symtab = some t → Elf.parseSymtab c b = .ok t.tab ∧ TableSound σ (str2symtab σ) t
  dynsym : ∀ (t : SymCells), s.dynsym = some t → Elf.parseDynsym b = .ok t.tab ∧ TableSound σ (dynNames σ c b) t
  sections : ∀ (cells : List (Option Bytes)), s.sections = some cells →
    (∃ (shdrs : List Shdr), Elf.parseShdrs b = .ok shdrs ∧ cells.length = shdrs.length) ∧
    ∀ (i : Nat) (d : Bytes), cells[i]? = some (some d) → Elf.sectionData c b i = .ok d
  relocs : ∀ (v : SectionRelocs), s.relocs = some v → Elf.parseSectionRelocs b = .ok v

section
variable {σ : Sorter} {c : Codec} {b : Backend}

theorem sound_new : Sound σ c b Cells.new := by
  constructor <;> intro v h <;> cases h

theorem ensureEhdr_computes : Computes (Sound σ c b) (ensureEhdr b) (parseEhdr b) :=
  getOrTryInit_computes (fun _ v h => h.ehdr v)
    (fun s v h hr => { h with ehdr := fun v' e => by cases e; exact hr }) (.lift _)

theorem parseShdrs_computes : Computes (Sound σ c b) (parseShdrs b) (Elf.parseShdrs b) :=
  ensureEhdr_computes.bind fun _ _ => .lift _

theorem ensureShdrs_computes : Computes (Sound σ c b) (ensureShdrs b) (Elf.parseShdrs b) :=
  getOrTryInit_computes (fun _ v h => h.shdrs v)
    (fun s v h hr => { h with shdrs := fun v' e => by cases e; exact hr }) parseShdrs_computes

theorem ensurePhdrs_computes : Computes (Sound σ c b) (ensurePhdrs b) (Elf.parsePhdrs b) :=
  getOrTryInit_computes (fun _ v h => h.phdrs v)
    (fun s v h hr => { h with phdrs := fun v' e => by cases e; exact hr }) (ensureEhdr_computes.bind fun _ _ => .lift _)

theorem sectionHdr_computes (idx : Nat) : Computes (Sound σ c b) (sectionHdr b idx) (Elf.sectionHdr b idx) :=
  ensureShdrs_computes.bind fun shdrs _ => by
    cases shdrs[idx]? with
    | none => exact .lift _
    | some s => exact .lift _

theorem sectionDataRaw_computes (idx : Nat) : Computes (Sound σ c b) (sectionDataRaw b idx) (Elf.sectionDataRaw b idx) :=
  (sectionHdr_computes idx).bind fun shdr _ => by
    split
    · exact .lift _
    · exact .lift _

theorem parseShstrtab_computes : Computes (Sound σ c b) (parseShstrtab b) (Elf.parseShstrtab b) :=
  ensureEhdr_computes.bind fun _ _ => (Computes.lift _).bind fun i _ => sectionDataRaw_computes i

theorem ensureShstrtab_computes : Computes (Sound σ c b) (ensureShstrtab b) (Elf.parseShstrtab b) :=
  getOrTryInit_computes (fun _ v h => h.shstrtab v)
    (fun s v h hr => { h with shstrtab := fun v' e => by cases e; exact hr }) parseShstrtab_computes

theorem sectionName_computes (idx : Nat) : Computes (Sound σ c b) (sectionName b idx) (Elf.sectionName b idx) :=
  (sectionHdr_computes idx).bind fun _ _ => ensureShstrtab_computes.bind fun _ _ => (Computes.lift _).bind fun s _ => by
    split
    · exact .lift _
    · exact .lift _

theorem findSectionLoop_eq (b : Backend) (name : Bytes) (n i : Nat) : Elf.findSectionLoop b name (n + 1) i =
    (do
      let s ← Elf.sectionName b i
      if s = name then .ok (some i) else Elf.findSectionLoop b name n (i + 1)) := by
  rw [Elf.findSectionLoop]
  cases Elf.sectionName b i <;> rfl

theorem findSectionLoop_computes (name : Bytes) : ∀ (n i : Nat),
    Computes (Sound σ c b) (findSectionLoop b name n i) (Elf.findSectionLoop b name n i)
  | 0, _ => .lift _
  | n + 1, i => by
    rw [findSectionLoop_eq]
    refine (sectionName_computes i).bind fun s _ => ?_
    split
    · exact .lift _
    · exact findSectionLoop_computes name n (i + 1)

theorem findSection_computes (name : Bytes) : Computes (Sound σ c b) (findSection b name) (Elf.findSection b name) :=
  ensureEhdr_computes.bind fun _ _ => findSectionLoop_computes name _ _

theorem parseSectionData_computes (l : Layout α) (idx : Nat) :
    Computes (Sound σ c b) (parseSectionData l b idx) (Elf.parseSectionData l b idx) :=
  ensureEhdr_computes.bind fun _ _ => (sectionHdr_computes idx).bind fun shdr _ => by
    split
    · exact .lift _
    · simp only
      split
      · exact .lift _
      · split
        · exact .lift _
        · exact .lift _

theorem parseSyms_computes (sec : Bytes) : Computes (Sound σ c b) (parseSyms b sec) (Elf.parseSyms b sec) :=
  ensureEhdr_computes.bind fun _ _ => (findSection_computes sec).bind fun r _ => by
    cases r with
    | none => exact .lift _
    | some idx => exact parseSectionData_computes _ _

theorem parseStrs_computes (sec : Bytes) : Computes (Sound σ c b) (parseStrs b sec) (Elf.parseStrs b sec) :=
  (findSection_computes sec).bind fun r _ => by
    cases r with
    | none => exact .lift _
    | some idx => exact sectionDataRaw_computes _

theorem parseDebugdata_computes : Computes (Sound σ c b) (parseDebugdata c b) (Elf.parseDebugdata c b) :=
  (findSection_computes _).bind fun r _ => by
    cases r with
    | none => exact .lift _
    | some idx => exact (sectionDataRaw_computes _).bind fun _ _ => .lift _

/-- The embedded file is read as a file of its own. -/
theorem parseInner_eq (σ : Sorter) (c : Codec) (inner : Backend) : (parseInner inner Cells.new).1 =
    (do
      let syms ← Elf.parseSyms inner nameSymtab
      let strs ← Elf.parseStrs inner nameStrtab
      .ok ⟨syms, strs⟩) := by
  have h : Computes (Sound σ c inner) (parseInner inner) (do
      let syms ← Elf.parseSyms inner nameSymtab
      let strs ← Elf.parseStrs inner nameStrtab
      .ok ⟨syms, strs⟩) :=
    (parseSyms_computes _).bind fun _ _ => (parseStrs_computes _).bind fun _ _ => .lift _
  exact (h Cells.new sound_new).1

theorem parseSymtab_computes : Computes (Sound σ c b) (parseSymtab c b) (Elf.parseSymtab c b) :=
  (parseSyms_computes _).bind fun syms _ => (parseStrs_computes _).bind fun strs _ => by
    split
    · refine parseDebugdata_computes.bind fun data _ => ?_
      split
      · exact .lift _
      · rw [parseInner_eq σ c]
        exact .lift _
    · exact .lift _

theorem parseDynsym_computes : Computes (Sound σ c b) (parseDynsym b) (Elf.parseDynsym b) :=
  (parseSyms_computes _).bind fun _ _ => (parseStrs_computes _).bind fun _ _ => .lift _

theorem ensureSymtab_computes : Computes (Sound σ c b) (ensureSymtab c b) (Elf.parseSymtab c b) := by
  refine getOrTryInit_computes (fun s v h hv => ?_) (fun s v h hr => ?_) parseSymtab_computes
  · cases ht : s.symtab with
    | none => rw [ht] at hv; cases hv
    | some t => rw [ht] at hv; cases hv; exact (h.symtab t ht).1
  · refine { h with symtab := fun t e => ?_ }
    cases e
    exact ⟨hr, ⟨fun l e => (by cases e), fun l e => (by cases e)⟩⟩

theorem ensureDynsym_computes : Computes (Sound σ c b) (ensureDynsym b) (Elf.parseDynsym b) := by
  refine getOrTryInit_computes (fun s v h hv => ?_) (fun s v h hr => ?_) parseDynsym_computes
  · cases ht : s.dynsym with
    | none => rw [ht] at hv; cases hv
    | some t => rw [ht] at hv; cases hv; exact (h.dynsym t ht).1
  · refine { h with dynsym := fun t e => ?_ }
    cases e
    exact ⟨hr, ⟨fun l e => (by cases e), fun l e => (by cases e)⟩⟩

/-- The contents of a table. -/
def tableNow (c : Codec) (b : Backend) : Table → Except Err SymTab
  | .symtab => Elf.parseSymtab c b
  | .dynsym => Elf.parseDynsym b

/-- The names of a table that are kept. -/
def namesNow (σ : Sorter) (c : Codec) (b : Backend) : Table → SymTab → Except Err (List (SymName × Nat))
  | .symtab => str2symtab σ
  | .dynsym => dynNames σ c b

theorem Sound.table {s : Cells} (h : Sound σ c b s) (which : Table) (t : SymCells) (ht : s.table which = some t) :
    tableNow c b which = .ok t.tab ∧ TableSound σ (namesNow σ c b which) t := by
  cases which with
  | symtab => exact h.symtab t ht
  | dynsym => exact h.dynsym t ht

theorem Sound.setTable {s : Cells} (h : Sound σ c b s) (which : Table) (t : SymCells)
    (h1 : tableNow c b which = .ok t.tab) (h2 : TableSound σ (namesNow σ c b which) t) : Sound σ c b (s.setTable t which) := by
  cases which with
  | symtab => exact { h with symtab := fun t' e => by cases e; exact ⟨h1, h2⟩ }
  | dynsym => exact { h with dynsym := fun t' e => by cases e; exact ⟨h1, h2⟩ }

theorem Sound.updateTable {s : Cells} (h : Sound σ c b s) (which : Table) (f : SymCells → SymCells)
    (hf : ∀ (t : SymCells), s.table which = some t → (f t).tab = t.tab ∧ TableSound σ (namesNow σ c b which) (f t)) :
    Sound σ c b (s.updateTable which f) := by
  unfold Cells.updateTable
  cases ht : s.table which with
  | none => exact h
  | some t =>
    obtain ⟨h1, h2⟩ := hf t ht
    exact h.setTable which _ (by rw [h1]; exact (h.table which t ht).1) h2

theorem ensureByAddr_computes {which : Table} {t : SymTab} (ht : tableNow c b which = .ok t) :
    Computes (Sound σ c b) (ensureByAddr σ which t) (.ok (createByAddrIdx σ t.syms)) := by
  refine getOrTryInit_computes (fun s v h hv => ?_) (fun s v h hr => ?_) (.lift _)
  · cases hs : s.table which with
    | none => rw [hs] at hv; cases hv
    | some t' =>
      rw [hs] at hv
      obtain ⟨k1, k2⟩ := h.table which t' hs
      have := Except.ok.inj (ht.symm.trans k1)
      rw [k2.byAddr v hv, this]
  · refine h.updateTable which _ fun t' hs => ?_
    obtain ⟨k1, k2⟩ := h.table which t' hs
    have := Except.ok.inj (ht.symm.trans k1)
    cases hr
    exact ⟨rfl, fun l e => by cases e; rw [this], k2.str2sym⟩

theorem createStr2sym_computes {which : Table} {t : SymTab} (ht : tableNow c b which = .ok t) (filter : Sym → Except Err Bool) :
    Computes (Sound σ c b) (createStr2sym σ which t filter) (Elf.createStr2sym σ t filter) := by
  have h : Computes (Sound σ c b) (createStr2sym σ which t filter) (do
      let byAddr ← Except.ok (createByAddrIdx σ t.syms)
      let l ← collectNames t.strs filter (byAddr.filterMap fun idx => (t.syms[idx]?).map fun s => (s, idx))
      .ok (σ.sort (nameLe t.strs) l)) :=
    (ensureByAddr_computes ht).bind fun _ _ => (Computes.lift _).bind fun _ _ => .lift _
  have e : (do
      let byAddr ← Except.ok (createByAddrIdx σ t.syms)
      let l ← collectNames t.strs filter (byAddr.filterMap fun idx => (t.syms[idx]?).map fun s => (s, idx))
      Except.ok (σ.sort (nameLe t.strs) l)) = Elf.createStr2sym σ t filter := by
    unfold Elf.createStr2sym
    simp only [bind, Except.bind]
    cases collectNames t.strs filter ((createByAddrIdx σ t.syms).filterMap fun idx => (t.syms[idx]?).map fun s => (s, idx)) <;> rfl
  rw [← e]
  exact h

theorem ensureStr2sym_computes {which : Table} {t : SymTab} (ht : tableNow c b which = .ok t) {filter : Sym → Except Err Bool}
    (hn : namesNow σ c b which t = Elf.createStr2sym σ t filter) :
    Computes (Sound σ c b) (ensureStr2sym σ which t filter) (Elf.createStr2sym σ t filter) := by
  refine getOrTryInit_computes (fun s v h hv => ?_) (fun s v h hr => ?_) (createStr2sym_computes ht filter)
  · cases hs : s.table which with
    | none => rw [hs] at hv; cases hv
    | some t' =>
      rw [hs] at hv
      obtain ⟨k1, k2⟩ := h.table which t' hs
      have := Except.ok.inj (ht.symm.trans k1)
      rw [← hn, this]
      exact k2.str2sym v hv
  · refine h.updateTable which _ fun t' hs => ?_
    obtain ⟨k1, k2⟩ := h.table which t' hs
    have := Except.ok.inj (ht.symm.trans k1)
    exact ⟨rfl, k2.byAddr, fun l e => by cases e; rw [← this, hn]; exact hr⟩

theorem ensureStr2symtab_computes : Computes (Sound σ c b) (ensureStr2symtab σ c b)
    (do let symtab ← Elf.parseSymtab c b; str2symtab σ symtab) :=
  ensureSymtab_computes.bind fun _ h => ensureStr2sym_computes (which := .symtab) h rfl

theorem notIn_eq (σ : Sorter) (symtab : SymTab) : notIn symtab (createByAddrIdx σ symtab.syms) = notInSymtab σ symtab := rfl

theorem ensureStr2dynsym_computes : Computes (Sound σ c b) (ensureStr2dynsym σ c b)
    (do
      let symtab ← Elf.parseSymtab c b
      let dynsym ← Elf.parseDynsym b
      str2dynsym σ symtab dynsym) :=
  ensureSymtab_computes.bind fun symtab h => (ensureByAddr_computes (which := .symtab) h).skip <|
    ensureDynsym_computes.bind fun dynsym h' => by
      rw [notIn_eq]
      refine ensureStr2sym_computes (which := .dynsym) h' ?_
      show dynNames σ c b dynsym = _
      unfold dynNames
      rw [h]
      rfl

theorem relocsLoop_computes : ∀ (n i : Nat) (maps : SectionRelocs),
    Computes (Sound σ c b) (relocsLoop b n i maps) (Elf.relocsLoop b n i maps)
  | 0, _, _ => .lift _
  | n + 1, i, maps => (sectionHdr_computes i).bind fun shdr _ => by
    split
    · exact (parseSectionData_computes _ _).bind fun _ _ => (parseSectionData_computes _ _).bind fun _ _ =>
        relocsLoop_computes n _ _
    · split
      · exact (parseSectionData_computes _ _).bind fun _ _ => (parseSectionData_computes _ _).bind fun _ _ =>
          relocsLoop_computes n _ _
      · exact relocsLoop_computes n _ _

theorem ensureSectionRelocs_computes : Computes (Sound σ c b) (ensureSectionRelocs b) (Elf.parseSectionRelocs b) :=
  getOrTryInit_computes (fun _ v h => h.relocs v)
    (fun s v h hr => { h with relocs := fun v' e => by cases e; exact hr }) <|
    ensureEhdr_computes.bind fun _ _ => by
      split
      · exact .lift _
      · exact relocsLoop_computes _ _ _

/-! ## Sections -/

theorem ensureSections_computes {shdrs : List Shdr} (hs : Elf.parseShdrs b = .ok shdrs) (s : Cells) (h : Sound σ c b s) :
    ∃ (cells : List (Option Bytes)), (ensureSections b s).1 = .ok cells ∧ (ensureSections b s).2.sections = some cells
      ∧ cells.length = shdrs.length ∧ Sound σ c b (ensureSections b s).2 := by
  unfold ensureSections getOrTryInit
  simp only
  cases hg : s.sections with
  | some cells =>
    obtain ⟨⟨l, k1, k2⟩, _⟩ := h.sections cells hg
    have := Except.ok.inj (hs.symm.trans k1)
    exact ⟨cells, rfl, hg, by rw [k2, this], h⟩
  | none =>
    have hc : Computes (Sound σ c b) (do let shdrs ← ensureShdrs b; Act.lift (.ok (List.replicate shdrs.length (none : Option Bytes))))
        (do let shdrs ← Elf.parseShdrs b; .ok (List.replicate shdrs.length none)) :=
      ensureShdrs_computes.bind fun _ _ => .lift _
    obtain ⟨h1, h2⟩ := hc s h
    rw [hs] at h1
    simp only
    generalize hr : (do let shdrs ← ensureShdrs b; Act.lift (.ok (List.replicate shdrs.length (none : Option Bytes))) : Act Cells _) s = r at h1 h2 ⊢
    obtain ⟨r', s'⟩ := r
    simp only at h1 h2
    subst h1
    show ∃ cells, _
    simp only [bind, Except.bind]
    cases hg' : s'.sections with
    | some cells =>
      obtain ⟨⟨l, k1, k2⟩, _⟩ := h2.sections cells hg'
      have := Except.ok.inj (hs.symm.trans k1)
      exact ⟨cells, rfl, hg', by rw [k2, this], h2⟩
    | none =>
      refine ⟨_, rfl, rfl, List.length_replicate, { h2 with sections := fun cells e => ?_ }⟩
      cases e
      refine ⟨⟨shdrs, hs, List.length_replicate⟩, fun i d hd => ?_⟩
      obtain ⟨_, hx⟩ := List.getElem?_eq_some_iff.1 hd
      rw [List.getElem_replicate] at hx
      cases hx

theorem readSection_computes (shdr : Shdr) : Computes (Sound σ c b) (readSection c b shdr)
    (do
      let data ← b.readSlice shdr.offset 1 1 shdr.size
      if shdr.flags &&& SHF_COMPRESSED ≠ 0 then
        let h ← parseEhdr b
        decompress c h.ehdr.bit32 data
      else .ok data) :=
  (Computes.lift _).bind fun _ _ => by
    split
    · exact ensureEhdr_computes.bind fun _ _ => .lift _
    · exact .lift _

theorem sectionData_computes (idx : Nat) : Computes (Sound σ c b) (sectionData c b idx) (Elf.sectionData c b idx) := by
  have hdr : ∀ (shdr : Shdr), Elf.sectionHdr b idx = .ok shdr →
      ∃ (shdrs : List Shdr), Elf.parseShdrs b = .ok shdrs ∧ idx < shdrs.length := by
    intro shdr h
    unfold Elf.sectionHdr at h
    cases hs : Elf.parseShdrs b with
    | error e => rw [hs] at h; cases h
    | ok shdrs =>
      rw [hs] at h
      simp only [bind, Except.bind] at h
      cases hx : shdrs[idx]? with
      | none => rw [hx] at h; cases h
      | some x => exact ⟨shdrs, rfl, (List.getElem?_eq_some_iff.1 hx).1⟩
  refine (sectionHdr_computes idx).bind fun shdr hshdr => ?_
  have hnow : ∀ (d : Bytes), shdr.type ≠ SHT_NOBITS → ((do
      let data ← b.readSlice shdr.offset 1 1 shdr.size
      if shdr.flags &&& SHF_COMPRESSED ≠ 0 then
        let h ← parseEhdr b
        decompress c h.ehdr.bit32 data
      else .ok data) = .ok d ↔ Elf.sectionData c b idx = .ok d) := by
    intro d ht
    unfold Elf.sectionData
    rw [hshdr]
    simp only [bind, Except.bind, if_pos ht]
  split
  · rename_i ht
    obtain ⟨shdrs, hs, hlt⟩ := hdr shdr hshdr
    intro s h
    obtain ⟨cells, k1, k2, k3, k4⟩ := ensureSections_computes hs s h
    show (Act.bind (ensureSections b) _ s).1 = _ ∧ Sound σ c b (Act.bind (ensureSections b) _ s).2
    unfold Act.bind
    generalize ensureSections b s = r at k1 k2 k4 ⊢
    obtain ⟨r', s'⟩ := r
    simp only at k1 k2 k4
    subst k1
    simp only
    rw [List.getElem?_eq_getElem (by omega)]
    simp only
    refine getOrTryInit_computes (fun s v h hv => ?_) (fun s v h hr => ?_) (readSection_computes shdr) s' k4
    · unfold Cells.section at hv
      cases hc : s.sections with
      | none => rw [hc] at hv; cases hv
      | some cells =>
        rw [hc] at hv
        simp only at hv
        have : cells[idx]? = some (some v) := by
          cases hx : cells[idx]? with
          | none => rw [hx] at hv; cases hv
          | some y => rw [hx] at hv; simp only [Option.join_some] at hv; rw [hv]
        exact (hnow v ht).2 ((h.sections cells hc).2 idx v this)
    · unfold Cells.setSection
      refine { h with sections := fun cells' e => ?_ }
      cases hc : s.sections with
      | none => rw [hc] at e; cases e
      | some cells =>
        rw [hc] at e
        simp only [Option.map_some, Option.some.injEq] at e
        subst e
        obtain ⟨⟨l, l1, l2⟩, k⟩ := h.sections cells hc
        refine ⟨⟨l, l1, by rw [List.length_set, l2]⟩, fun i d hd => ?_⟩
        by_cases hi : idx = i
        · subst hi
          rw [List.getElem?_set] at hd
          simp only [if_pos] at hd
          split at hd
          · cases hd
            exact (hnow _ ht).1 hr
          · cases hd
        · rw [List.getElem?_set_ne hi] at hd
          exact k i d hd
  · exact .lift _

/-! ## Queries -/

theorem findSymbol_computes (addr : Nat) : Computes (Sound σ c b) (findSymbol σ c b addr) ((File.ofImage c b).findSym σ addr) :=
  ensureSymtab_computes.bind fun symtab h => (ensureByAddr_computes (which := .symtab) h).skip <|
    (Computes.lift _).bind fun r _ => by
      cases r with
      | some sym => exact .lift _
      | none =>
        exact ensureDynsym_computes.bind fun dynsym h' => (ensureByAddr_computes (which := .dynsym) h').skip <|
          (Computes.lift _).bind fun r _ => by
            cases r with
            | some sym => exact .lift _
            | none => exact .lift _

theorem ensureStr2symtab_known {symtab : SymTab} (h : Elf.parseSymtab c b = .ok symtab) :
    Computes (Sound σ c b) (ensureStr2symtab σ c b) (str2symtab σ symtab) := by
  have := ensureStr2symtab_computes (σ := σ) (c := c) (b := b)
  rw [h] at this
  exact this

theorem ensureStr2dynsym_known {symtab dynsym : SymTab} (h : Elf.parseSymtab c b = .ok symtab) (h' : Elf.parseDynsym b = .ok dynsym) :
    Computes (Sound σ c b) (ensureStr2dynsym σ c b) (str2dynsym σ symtab dynsym) := by
  have := ensureStr2dynsym_computes (σ := σ) (c := c) (b := b)
  rw [h, h'] at this
  exact this

theorem findAddr_computes (name : Bytes) (opts : FindAddrOpts) :
    Computes (Sound σ c b) (findAddr σ c b name opts) ((File.ofImage c b).findAddr σ name opts) :=
  ensureShdrs_computes.bind fun shdrs _ => ensureSymtab_computes.bind fun symtab h =>
    (ensureStr2symtab_known h).bind fun names _ => (Computes.lift _).bind fun syms _ => by
      split
      · exact ensureDynsym_computes.bind fun dynsym h' => (ensureStr2dynsym_known h h').bind fun _ _ => .lift _
      · exact .lift _

theorem cacheAll_computes : Computes (Sound σ c b) (cacheAll σ c b)
    (do
      let symtab ← Elf.parseSymtab c b
      let _ ← str2symtab σ symtab
      let dynsym ← Elf.parseDynsym b
      let _ ← str2dynsym σ symtab dynsym
      .ok ()) :=
  ensureSymtab_computes.bind fun symtab h => (ensureStr2symtab_known h).bind fun _ _ =>
    ensureDynsym_computes.bind fun dynsym h' => (ensureStr2dynsym_known h h').bind fun _ _ => .lift _

theorem _root_.Blazesym.Cache.Computes.answer {I : Cells → Prop} {a : Act Cells α} {r : Except Err α} (h : Computes I a r) (f : α → Answer) :
    Computes I (do return f (← a)) (r.map f) := by
  have : r.map f = (do let x ← r; .ok (f x)) := by cases r <;> rfl
  rw [this]
  exact h.bind fun _ _ => .lift _

theorem run_computes (q : Query) : Computes (Sound σ c b) (q.run σ c b) (q.now σ c b) := by
  cases q with
  | findSym addr => exact (findSymbol_computes addr).answer _
  | findAddr name opts => exact (findAddr_computes name opts).answer _
  | findFileOffset addr size => exact Computes.answer (ensurePhdrs_computes.bind fun _ _ => .lift _) _
  | fileOffsetToVirtOffset offset => exact Computes.answer (ensurePhdrs_computes.bind fun _ _ => .lift _) _
  | sectionData idx => exact (sectionData_computes idx).answer _
  | findSection name => exact (findSection_computes name).answer _
  | sectionRelocs => exact ensureSectionRelocs_computes.answer _
  | sectionHeaders => exact ensureShdrs_computes.answer _
  | programHeaders => exact ensurePhdrs_computes.answer _
  | cache =>
    have : Query.now σ c b .cache = (do
        let _ ← (do
          let symtab ← Elf.parseSymtab c b
          let _ ← str2symtab σ symtab
          let dynsym ← Elf.parseDynsym b
          let _ ← str2dynsym σ symtab dynsym
          Except.ok ())
        .ok Answer.done) := by
      unfold Query.now
      simp only [bind, Except.bind]
      cases Elf.parseSymtab c b with
      | error e => rfl
      | ok symtab =>
        simp only
        cases str2symtab σ symtab with
        | error e => rfl
        | ok _ =>
          simp only
          cases Elf.parseDynsym b with
          | error e => rfl
          | ok dynsym =>
            simp only
            cases str2dynsym σ symtab dynsym <;> rfl
    rw [this]
    exact cacheAll_computes.bind fun _ _ => .lift _

theorem runAll_sound (qs : List Query) : ∀ {s : Cells}, Sound σ c b s → Sound σ c b (runAll σ c b qs s) := by
  induction qs with
  | nil => exact fun h => h
  | cons q qs ih => exact fun h => ih (run_computes q _ h).2

/-! ## Visiting all symbols -/

section
variable {S : Type} {opts : FindAddrOpts} {f : S → SymInfo → S × Bool} {asks : S → SymInfo → List Query}

/-- A computation with the cells and the state of a callback. -/
def Visits (σ : Sorter) (c : Codec) (b : Backend) (a : Act (S × Cells) α) (r : S → Except Err α × S) : Prop :=
  ∀ (s : S) (cells : Cells), Sound σ c b cells →
    (a (s, cells)).1 = (r s).1 ∧ (a (s, cells)).2.1 = (r s).2 ∧ Sound σ c b (a (s, cells)).2.2

theorem Visits.onCells {a : Act Cells α} {r : Except Err α} (h : Computes (Sound σ c b) a r) :
    Visits (S := S) σ c b (Lazy.onCells a) fun s => (r, s) := by
  intro s cells hs
  obtain ⟨h1, h2⟩ := h cells hs
  unfold Lazy.onCells Act.zoom
  cases ha : a cells with
  | mk r' cells' =>
    rw [ha] at h1 h2
    exact ⟨h1, rfl, h2⟩

theorem Visits.bind {β : Type} {a : Act (S × Cells) α} {r : S → Except Err α × S} {g : α → Act (S × Cells) β}
    {r' : S → Except Err β × S} (h : Visits σ c b a r)
    (he : ∀ (s : S) (e : Err), (r s).1 = .error e → r' s = (.error e, (r s).2))
    (hg : ∀ (s : S) (x : α), (r s).1 = .ok x → ∀ (cells : Cells), Sound σ c b cells →
      (g x ((r s).2, cells)).1 = (r' s).1 ∧ (g x ((r s).2, cells)).2.1 = (r' s).2 ∧ Sound σ c b (g x ((r s).2, cells)).2.2) :
    Visits σ c b (a >>= g) r' := by
  intro s cells hs
  obtain ⟨h1, h2, h3⟩ := h s cells hs
  show (Act.bind a g (s, cells)).1 = _ ∧ (Act.bind a g (s, cells)).2.1 = _ ∧ Sound σ c b (Act.bind a g (s, cells)).2.2
  unfold Act.bind
  cases ha : a (s, cells) with
  | mk x y =>
    obtain ⟨s', cells'⟩ := y
    rw [ha] at h1 h2 h3
    simp only at h1 h2 h3
    cases x with
    | error e =>
      rw [he s e h1.symm]
      exact ⟨rfl, h2, h3⟩
    | ok x =>
      have := hg s x h1.symm cells' h3
      rw [← h2] at this
      exact this

theorem Visits.bindCells {β : Type} {a : Act Cells α} {r : Except Err α} {g : α → Act (S × Cells) β}
    {r' : S → Except Err β × S} (h : Computes (Sound σ c b) a r)
    (he : ∀ (e : Err), r = .error e → ∀ (s : S), r' s = (.error e, s))
    (hg : ∀ (x : α), r = .ok x → Visits σ c b (g x) r') : Visits σ c b (Lazy.onCells a >>= g) r' :=
  Visits.bind (Visits.onCells h) (fun s e h' => he e h' s) fun s x h' cells hs => hg x h' s cells hs

theorem forEachLoop_visits (shdrs : List Shdr) (t : SymTab) : ∀ (l : List (SymName × Nat)),
    Visits σ c b (forEachLoop σ c b opts shdrs t f asks l) (Elf.forEachLoop opts shdrs t f l) := by
  intro l
  induction l with
  | nil => exact fun s cells h => ⟨rfl, rfl, h⟩
  | cons x rest ih =>
    obtain ⟨name, idx⟩ := x
    intro s cells h
    unfold forEachLoop Elf.forEachLoop
    cases t.syms[idx]? with
    | none => exact ⟨rfl, rfl, h⟩
    | some sym =>
      simp only
      split
      · cases mkSymInfo opts shdrs t.strs name sym with
        | error e => exact ⟨rfl, rfl, h⟩
        | ok info =>
          simp only
          rcases hf : f s info with ⟨s', stop⟩
          cases stop with
          | true => exact ⟨rfl, rfl, runAll_sound _ h⟩
          | false => exact ih s' _ (runAll_sound _ h)
      · exact ih s cells h

theorem forEachImpl_visits (t : SymTab) (l : List (SymName × Nat)) :
    Visits σ c b (forEachImpl σ c b opts t l f asks) (Elf.forEachImpl opts (Elf.parseShdrs b) t l f) := by
  refine Visits.bind (Visits.onCells ensureShdrs_computes) (fun s e h => ?_) (fun s shdrs h cells hs => ?_)
  · simp only at h
    unfold Elf.forEachImpl
    rw [h]
  · simp only at h
    unfold Elf.forEachImpl
    rw [h]
    exact forEachLoop_visits shdrs t l s cells hs

theorem forEach_visits : Visits σ c b (forEach σ c b opts f asks) ((File.ofImage c b).forEach σ opts f) := by
  have hfe : ∀ (s : S), (File.ofImage c b).forEach σ opts f s =
      match Elf.parseSymtab c b with
      | .error e => (.error e, s)
      | .ok symtab =>
        match str2symtab σ symtab with
        | .error e => (.error e, s)
        | .ok names =>
          match Elf.forEachImpl opts (Elf.parseShdrs b) symtab names f s with
          | (.error e, s') => (.error e, s')
          | (.ok (), s') =>
            match Elf.parseDynsym b with
            | .error e => (.error e, s')
            | .ok dynsym =>
              match str2dynsym σ symtab dynsym with
              | .error e => (.error e, s')
              | .ok names => Elf.forEachImpl opts (Elf.parseShdrs b) dynsym names f s' := by
    intro s
    unfold File.forEach File.forEachSymtab File.forEachDynsym File.ofImage
    simp only
    cases Elf.parseSymtab c b with
    | error e => rfl
    | ok symtab =>
      simp only
      cases str2symtab σ symtab with
      | error e => rfl
      | ok names =>
        simp only
        rcases Elf.forEachImpl opts (Elf.parseShdrs b) symtab names f s with ⟨r, s'⟩
        cases r with
        | error e => rfl
        | ok u =>
          cases Elf.parseDynsym b with
          | error e => rfl
          | ok dynsym => rfl
  refine Visits.bindCells ensureSymtab_computes (fun e h s => by rw [hfe, h]) fun symtab h => ?_
  refine Visits.bindCells (ensureStr2symtab_known h) (fun e h' s => by rw [hfe, h]; simp only; rw [h']) fun names h' => ?_
  refine Visits.bind (forEachImpl_visits symtab names) (fun s e h'' => ?_) fun s u h'' => ?_
  · rw [hfe, h]; simp only; rw [h']; simp only
    rcases hx : Elf.forEachImpl opts (Elf.parseShdrs b) symtab names f s with ⟨r, s'⟩
    rw [hx] at h''
    simp only at h''
    subst h''
    rfl
  obtain ⟨s', hs'⟩ : ∃ s', (Elf.forEachImpl opts (Elf.parseShdrs b) symtab names f s).2 = s' := ⟨_, rfl⟩
  have hx : Elf.forEachImpl opts (Elf.parseShdrs b) symtab names f s = (.ok (), s') := Prod.ext h'' hs'
  have heq : (File.ofImage c b).forEach σ opts f s =
      (match Elf.parseDynsym b with
        | .error e => (.error e, s')
        | .ok dynsym =>
          match str2dynsym σ symtab dynsym with
          | .error e => (.error e, s')
          | .ok names => Elf.forEachImpl opts (Elf.parseShdrs b) dynsym names f s') := by
    rw [hfe, h]; simp only; rw [h']; simp only; rw [hx]
  rw [hs', heq]
  have hlast : Visits σ c b (do
      let dynsym ← onCells (ensureDynsym b)
      let names ← onCells (ensureStr2dynsym σ c b)
      forEachImpl σ c b opts dynsym names f asks) (fun s' =>
      match Elf.parseDynsym b with
        | .error e => (.error e, s')
        | .ok dynsym =>
          match str2dynsym σ symtab dynsym with
          | .error e => (.error e, s')
          | .ok names => Elf.forEachImpl opts (Elf.parseShdrs b) dynsym names f s') := by
    refine Visits.bindCells ensureDynsym_computes (fun e h' s => by rw [h']) fun dynsym hd => ?_
    rw [hd]
    refine Visits.bindCells (ensureStr2dynsym_known h hd) (fun e h' s => by simp only; rw [h']) fun names hn => ?_
    simp only
    rw [hn]
    exact forEachImpl_visits dynsym names
  exact hlast s'

end

theorem sound_of_asked {cells : Cells} (h : Asked σ c b cells) : Sound σ c b cells := by
  induction h with
  | new => exact sound_new
  | query cells q _ ih => exact (run_computes q cells ih).2
  | forEach cells S opts f asks s _ ih => exact (forEach_visits s cells ih).2.2

end

end Blazesym.Elf.Lazy
