import Verif.Elf.NameLemmas

/-! Property theorems C08 and C45 (for ELF files). -/

set_option autoImplicit false

namespace Blazesym.Elf
open Blazesym.Util Blazesym.Spec Blazesym.Spec.Elf

/-- A name lookup in one table, with the name index of that table. -/
theorem findAddrImpl_reports {σ : Sorter} {t : SymTab} {filter : Sym → Except Err Bool}
    {names : List (SymName × Nat)} (hnames : createStr2sym σ t filter = .ok names)
    {name : Bytes} {opts : FindAddrOpts} {shdrs : List Shdr} {res : List SymInfo}
    (h : findAddrImpl name opts shdrs t names = .ok res) :
    ReportsExactly t (fun s => Supported s ∧ Defined s ∧ NameAt t.strs s.name name ∧
      filter s = .ok true) (Describes opts shdrs t.strs) res := by
  obtain ⟨hs, hnd, hent, hall⟩ := createStr2sym_ok hnames
  unfold findAddrImpl at h
  rcases visited_iff t names name hs with ⟨h1, h2⟩ | ⟨n, h1, h2⟩
  · rw [h1] at h
    simp only at h
    cases h
    refine ⟨[], List.nodup_nil, ?_, .nil⟩
    intro i
    simp only [List.not_mem_nil, false_iff, not_exists, not_and]
    intro s hi hsup _ hn hf
    obtain ⟨e, he, hei⟩ := List.mem_map.mp (hall i s hi hsup hf)
    obtain ⟨s', g1, _, _, g4⟩ := hent e he
    rw [hei, hi] at g1; cases g1
    exact h2 e he (nameAt_unique g4 hn)
  · rw [h1] at h
    simp only at h
    have hloop := findAddrLoop_ok h
    refine ⟨(((names.drop n).takeWhile (fun e => decide (e.1.bytes t.strs = name))).filter
      (fun e => definedAt t.syms e.2)).map Prod.snd, ?_, ?_, ?_⟩
    · refine hnd.sublist (List.Sublist.map _ ?_)
      exact (List.filter_sublist.trans (List.takeWhile_sublist _)).trans (List.drop_sublist _ _)
    · intro i
      simp only [List.mem_map, List.mem_filter]
      constructor
      · rintro ⟨e, ⟨he, hdef⟩, rfl⟩
        obtain ⟨he1, he2⟩ := (h2 e).mp he
        obtain ⟨s, g1, g2, g3, g4⟩ := hent e he1
        rw [he2] at g4
        refine ⟨s, g1, g2, ?_, g4, g3⟩
        simpa [definedAt, g1, Defined, SHN_UNDEF] using hdef
      · rintro ⟨s, hi, hsup, hd, hn, hf⟩
        obtain ⟨e, he, hei⟩ := List.mem_map.mp (hall i s hi hsup hf)
        obtain ⟨s', g1, _, _, g4⟩ := hent e he
        rw [hei, hi] at g1; cases g1
        refine ⟨e, ⟨(h2 e).mpr ⟨he, nameAt_unique g4 hn⟩, ?_⟩, hei⟩
        simp only [definedAt, hei, hi, SHN_UNDEF]
        simpa [Defined] using hd
    · rw [forall2_map_left]
      refine forall2_imp_mem hloop ?_
      rintro e r he ⟨s, hs', hmk⟩
      refine ⟨s, hs', mkSymInfo_ok ?_ hmk⟩
      obtain ⟨he1, _⟩ := (h2 e).mp (List.mem_filter.mp he).1
      obtain ⟨s', g1, _, _, g4⟩ := hent e he1
      rw [hs'] at g1; cases g1
      exact g4

/-- A name lookup in one table fails only because of a file offset that cannot be computed. -/
theorem findAddrImpl_error {σ : Sorter} {t : SymTab} {filter : Sym → Except Err Bool}
    {names : List (SymName × Nat)} (hnames : createStr2sym σ t filter = .ok names)
    {name : Bytes} (hutf : isUtf8 name = true) {opts : FindAddrOpts} {shdrs : List Shdr} {e : Err}
    (h : findAddrImpl name opts shdrs t names = .error e) :
    opts.fileOffset = true ∧ ∃ s ∈ t.syms, Supported s ∧ Defined s ∧ NameAt t.strs s.name name ∧
      fileOffset shdrs s = .error e := by
  obtain ⟨hs, hnd, hent, hall⟩ := createStr2sym_ok hnames
  unfold findAddrImpl at h
  split at h
  · rename_i n hn
    obtain ⟨x, hx, s, g1, g2, g3, g4⟩ := findAddrLoop_error (by
      intro x hx
      obtain ⟨s, hs, _⟩ := hent x (List.mem_of_mem_drop hx)
      exact ⟨s, hs⟩) h
    obtain ⟨s', k1, k2, k3, k4⟩ := hent x (List.mem_of_mem_drop hx)
    rw [g1] at k1; cases k1
    obtain ⟨ty, hty, _⟩ := tryFrom_some s k2
    unfold mkSymInfo SymName.name at g4
    simp only [g3, hutf, if_true, hty] at g4
    split at g4
    · rename_i ho
      split at g4
      · rename_i e' he'
        cases g4
        exact ⟨ho, s, List.mem_of_getElem? g1, k2, g2, by rw [← g3]; exact k4, he'⟩
      · simp at g4
    · simp at g4
  · simp at h

/-- **C08** names found in `.symtab`: when a name lookup succeeds and `.symtab` has a defined
symbol (of a supported type) of that name, the answer consists of exactly those symbols of
`.symtab`, each once, with its address, size, kind and (if requested) file offset. -/
theorem C08_find_addr_symtab (σ : Sorter) (file : File) (symtab : SymTab) (shdrs : List Shdr)
    (hs : file.shdrs = .ok shdrs) (h1 : file.symtab = .ok symtab) (name : Bytes)
    (opts : FindAddrOpts) (res : List SymInfo) (h : file.findAddr σ name opts = .ok res)
    (hex : ∃ s ∈ symtab.syms, Supported s ∧ Defined s ∧ NameAt symtab.strs s.name name) :
    ReportsExactly symtab (fun s => Supported s ∧ Defined s ∧ NameAt symtab.strs s.name name)
      (Describes opts shdrs symtab.strs) res := by
  unfold File.findAddr at h
  rw [hs, h1] at h
  simp only [bind, Except.bind, pure, Except.pure] at h
  split at h
  · simp at h
  · rename_i names hnames
    unfold str2symtab at hnames
    split at h
    · simp at h
    · rename_i r hr
      have hrep := findAddrImpl_reports hnames hr
      simp only [and_true] at hrep
      split at h
      · rename_i hemp
        exfalso
        have : r = [] := by simpa using hemp
        subst this
        obtain ⟨is, _, h3, h4⟩ := hrep
        have hnil : is = [] := by cases h4; rfl
        subst hnil
        obtain ⟨s, hs, hrest⟩ := hex
        obtain ⟨i, hi⟩ := List.mem_iff_getElem?.mp hs
        have := (h3 i).mpr ⟨s, hi, hrest⟩
        simp at this
      · cases h; exact hrep

/-- **C08** names not in `.symtab` (what holds): the answer consists of exactly those defined
symbols of `.dynsym` of that name for whose address `.symtab` yields no symbol of the same
kind.  The full claim, without that last restriction, is false: `C08_dynsym_hidden`. -/
theorem C08_find_addr_dynsym_partial (σ : Sorter) (file : File) (symtab dynsym : SymTab)
    (shdrs : List Shdr) (hs : file.shdrs = .ok shdrs) (h1 : file.symtab = .ok symtab)
    (h2 : file.dynsym = .ok dynsym) (name : Bytes) (opts : FindAddrOpts) (res : List SymInfo)
    (h : file.findAddr σ name opts = .ok res)
    (hno : ∀ s ∈ symtab.syms, Supported s → Defined s → ¬ NameAt symtab.strs s.name name) :
    ReportsExactly dynsym (fun s => Supported s ∧ Defined s ∧ NameAt dynsym.strs s.name name ∧
        ∀ ty, KindOf s ty → ∀ r, symtab.lookup σ .symtab s.value ty ≠ .ok (some r))
      (Describes opts shdrs dynsym.strs) res := by
  unfold File.findAddr at h
  rw [hs, h1, h2] at h
  simp only [bind, Except.bind, pure, Except.pure] at h
  split at h
  · simp at h
  · rename_i names hnames
    unfold str2symtab at hnames
    split at h
    · simp at h
    · rename_i r hr
      have hrep := findAddrImpl_reports hnames hr
      have hr0 : r = [] := by
        obtain ⟨is, _, h3, h4⟩ := hrep
        cases is with
        | nil => cases h4; rfl
        | cons i is =>
          obtain ⟨s, hi, a, b, c, _⟩ := (h3 i).mp (by simp)
          exact absurd c (hno s (List.mem_of_getElem? hi) a b)
      subst hr0
      simp only [List.isEmpty_nil, if_true] at h
      split at h
      · simp at h
      · rename_i names' hnames'
        unfold str2dynsym at hnames'
        have hrep' := findAddrImpl_reports hnames' h
        obtain ⟨is, k1, k2, k3⟩ := hrep'
        refine ⟨is, k1, ?_, k3⟩
        intro i
        rw [k2]
        -- the filter never errs on a symbol that is in the index
        constructor
        · rintro ⟨s, hi, a, b, c, d⟩
          refine ⟨s, hi, a, b, c, ?_⟩
          intro ty hty r hr
          unfold notInSymtab at d
          have : tryFromElfType s.type = some ty := by
            rw [type_eq]
            unfold KindOf at hty
            rcases hty with ⟨rfl, h | h⟩ | ⟨rfl, h⟩ | ⟨rfl, h⟩ <;> rw [h] <;> decide
          rw [this] at d
          simp only [hr] at d
          exact absurd d (by simp)
        · rintro ⟨s, hi, a, b, c, d⟩
          refine ⟨s, hi, a, b, c, ?_⟩
          obtain ⟨ty, hty, _⟩ := tryFrom_some s a
          have hk : KindOf s ty := by
            rw [type_eq] at hty
            unfold tryFromElfType STT_NOTYPE STT_FUNC STT_GNU_IFUNC STT_OBJECT at hty
            unfold KindOf
            split at hty
            · cases hty; simp; assumption
            · split at hty
              · cases hty; simp; assumption
              · split at hty
                · cases hty; simp; assumption
                · simp at hty
          have hd := d ty hk
          have hnp : notInSymtab σ symtab s ≠ .error .panic ∨ notInSymtab σ symtab s = .error .panic :=
            (Classical.em _).symm
          rcases hnp with hnp | hnp
          · unfold notInSymtab at hnp ⊢
            rw [hty] at hnp ⊢
            simp only at hnp ⊢
            split
            · rename_i r hr; exact absurd hr (hd r)
            · rfl
            · rename_i hp; rw [hp] at hnp; simp at hnp
            · rfl
          · -- a panic would have made building the index fail
            exfalso
            have hmem := (mem_indexPairs σ dynsym.syms s i).mpr ⟨hi, a⟩
            unfold createStr2sym at hnames'
            simp only at hnames'
            split at hnames'
            · simp at hnames'
            · rename_i l hl
              change collectNames dynsym.strs _ (indexPairs σ dynsym.syms) = _ at hl
              have : ∀ pairs : List (Sym × Nat), (s, i) ∈ pairs →
                  ∀ l, collectNames dynsym.strs (notInSymtab σ symtab) pairs ≠ .ok l := by
                intro pairs
                induction pairs with
                | nil => simp
                | cons p rest ih =>
                  intro hp l hl
                  obtain ⟨s', i'⟩ := p
                  unfold collectNames at hl
                  rcases List.mem_cons.mp hp with heq | hp
                  · cases heq
                    rw [hnp] at hl
                    simp at hl
                  · split at hl
                    · simp at hl
                    · exact ih hp l hl
                    · split at hl
                      · simp at hl
                      · split at hl
                        · simp at hl
                        · rename_i l' hl'; exact ih hp l' hl'
              exact this _ hmem _ hl

/-- **C08** (defect: hidden dynamic symbols): a name that only `.dynsym` has is not found when
`.symtab` yields, for each dynamic symbol of that name, any symbol of the same kind covering
its address — whatever that symbol is called. -/
theorem C08_dynsym_hidden (σ : Sorter) (file : File) (symtab dynsym : SymTab)
    (shdrs : List Shdr) (hs : file.shdrs = .ok shdrs) (h1 : file.symtab = .ok symtab)
    (h2 : file.dynsym = .ok dynsym) (name : Bytes) (opts : FindAddrOpts) (res : List SymInfo)
    (h : file.findAddr σ name opts = .ok res)
    (hno : ∀ s ∈ symtab.syms, Supported s → Defined s → ¬ NameAt symtab.strs s.name name)
    (hcov : ∀ s ∈ dynsym.syms, Supported s → Defined s → NameAt dynsym.strs s.name name →
      ∃ ty, KindOf s ty ∧ ∃ r, symtab.lookup σ .symtab s.value ty = .ok (some r)) :
    res = [] := by
  obtain ⟨is, _, h3, h4⟩ :=
    C08_find_addr_dynsym_partial σ file symtab dynsym shdrs hs h1 h2 name opts res h hno
  cases is with
  | nil => cases h4; rfl
  | cons i is =>
    obtain ⟨s, hi, a, b, c, d⟩ := (h3 i).mp (by simp)
    obtain ⟨ty, hk, r, hr⟩ := hcov s (List.mem_of_getElem? hi) a b c
    exact absurd hr (d ty hk r)

/-- **C08** a name lookup is answered (no error) if both tables parsed, all symbols have
well-formed names and fit the address space, and, if file offsets are requested, symbols of the name have
sections. -/
theorem C08_find_addr_succeeds (σ : Sorter) (file : File) (symtab dynsym : SymTab)
    (shdrs : List Shdr) (hs : file.shdrs = .ok shdrs) (h1 : file.symtab = .ok symtab)
    (h2 : file.dynsym = .ok dynsym) (name : Bytes) (hutf : isUtf8 name = true)
    (opts : FindAddrOpts) (ho : opts.fileOffset = true → ∀ s, s ∈ symtab.syms ∨ s ∈ dynsym.syms → Supported s →
      Defined s → NameAt symtab.strs s.name name ∨ NameAt dynsym.strs s.name name → ∃ o, fileOffset shdrs s = .ok o)
    (hw : NoWrap symtab.syms) (hn1 : GoodNames symtab) (hn2 : GoodNames dynsym) :
    ∃ res, file.findAddr σ name opts = .ok res := by
  unfold File.findAddr
  rw [hs, h1, h2]
  simp only [bind, Except.bind, pure, Except.pure]
  have himpl : ∀ (t : SymTab) (filter : Sym → Except Err Bool) (names : List (SymName × Nat)),
      t = symtab ∨ t = dynsym →
      createStr2sym σ t filter = .ok names → ∃ r, findAddrImpl name opts shdrs t names = .ok r := by
    intro t filter names ht hc
    cases hr : findAddrImpl name opts shdrs t names with
    | ok r => exact ⟨r, rfl⟩
    | error e =>
      obtain ⟨h, s, k1, k2, k3, k4, k5⟩ := findAddrImpl_error hc hutf hr
      obtain ⟨o, h⟩ := ho h s (by rcases ht with rfl | rfl; exacts [.inl k1, .inr k1]) k2 k3
        (by rcases ht with rfl | rfl; exacts [.inl k4, .inr k4])
      rw [h] at k5
      cases k5
  cases ha : str2symtab σ symtab with
  | error e =>
    obtain ⟨s, hs, hsup, h⟩ := createStr2sym_error ha
    obtain ⟨n, hn, _⟩ := hn1 s hs hsup
    rcases h with h | ⟨_, _, h⟩
    · simp at h
    · exact absurd hn (h n)
  | ok names =>
    obtain ⟨r, hr⟩ := himpl _ _ _ (.inl rfl) ha
    simp only [hr]
    split
    · cases hb : str2dynsym σ symtab dynsym with
      | error e =>
        obtain ⟨s, hs, hsup, h⟩ := createStr2sym_error hb
        obtain ⟨n, hn, _⟩ := hn2 s hs hsup
        rcases h with h | ⟨_, _, h⟩
        · exfalso
          obtain ⟨ty, hty, _⟩ := tryFrom_some s hsup
          unfold notInSymtab at h
          rw [hty] at h
          simp only at h
          split at h
          · simp at h
          · simp at h
          · rename_i hp
            obtain ⟨s', hs', hsup', _, hc⟩ := C04_lookup_error _ _ _ _ _ _ hp
            rcases hc with ⟨_, hc⟩ | ⟨hc, _⟩ | ⟨hc, _⟩
            · have := hw s' hs' hsup'; omega
            · simp at hc
            · simp at hc
          · simp at h
        · exact absurd hn (h n)
      | ok names' =>
        obtain ⟨r', hr'⟩ := himpl _ _ _ (.inr rfl) hb
        exact ⟨r', by simp only [hr']⟩
    · exact ⟨_, rfl⟩

/-- **C08** (fragility): one symbol of a supported type whose name lies outside of the string
table makes *every* name lookup in the file fail. -/
theorem C08_bad_name_fails_all (σ : Sorter) (file : File) (symtab : SymTab) (shdrs : List Shdr)
    (hs : file.shdrs = .ok shdrs) (h1 : file.symtab = .ok symtab) (s : Sym) (hmem : s ∈ symtab.syms)
    (hsup : Supported s) (hbad : ∀ n, ¬ NameAt symtab.strs s.name n) (name : Bytes)
    (opts : FindAddrOpts) : file.findAddr σ name opts = .error .invalidInput := by
  unfold File.findAddr
  rw [hs, h1]
  simp only [bind, Except.bind]
  cases ha : str2symtab σ symtab with
  | error e =>
    obtain ⟨s', _, _, h⟩ := createStr2sym_error ha
    rcases h with h | ⟨_, h, _⟩
    · simp at h
    · simp [h]
  | ok names =>
    exfalso
    obtain ⟨_, _, hent, hall⟩ := createStr2sym_ok ha
    obtain ⟨i, hi⟩ := List.mem_iff_getElem?.mp hmem
    obtain ⟨e, he, hei⟩ := List.mem_map.mp (hall i s hi hsup rfl)
    obtain ⟨s', g1, _, _, g4⟩ := hent e he
    rw [hei, hi] at g1; cases g1
    exact hbad _ g4

/-! ### C45 -/

/-- The test `for_each_sym_impl` makes for an entry. -/
def wanted (opts : FindAddrOpts) (t : SymTab) (e : SymName × Nat) : Bool :=
  match t.syms[e.2]? with
  | some s => s.matches opts.symType && s.shndx != SHN_UNDEF
  | none => false

theorem forEachLoop_feed {S : Type} (opts : FindAddrOpts) (shdrs : List Shdr) (t : SymTab)
    (f : S → SymInfo → S × Bool) (l : List (SymName × Nat)) (vis : List SymInfo)
    (hin : ∀ e ∈ l, ∃ s, t.syms[e.2]? = some s)
    (hvis : List.Forall₂ (fun e r => ∃ s, t.syms[e.2]? = some s ∧
        mkSymInfo opts shdrs t.strs e.1 s = .ok r)
      (l.filter (wanted opts t)) vis) (s : S) :
    forEachLoop opts shdrs t f l s = (.ok (), (feed f s vis).1) := by
  induction l generalizing vis s with
  | nil => cases hvis; rfl
  | cons e rest ih =>
    obtain ⟨n, i⟩ := e
    obtain ⟨sym, hsym⟩ := hin (n, i) (by simp)
    have hin' : ∀ e ∈ rest, ∃ s, t.syms[e.2]? = some s := fun e he => hin e (by simp [he])
    unfold forEachLoop
    simp only at hsym
    simp only [hsym]
    by_cases hc : (sym.matches opts.symType && sym.shndx != SHN_UNDEF) = true
    · rw [if_pos hc]
      simp only [List.filter_cons, wanted, hsym, hc, if_true] at hvis
      cases hvis with
      | cons h1 h2 =>
        rename_i r vis'
        obtain ⟨s', hs', hmk⟩ := h1
        simp only at hs'
        rw [hsym] at hs'; cases hs'
        simp only [hmk, feed]
        cases hf : f s r with
        | mk s'' b =>
          cases b with
          | true => rfl
          | false => exact ih vis' hin' h2 s''
    · rw [if_neg hc]
      simp only [List.filter_cons, wanted, hsym] at hvis
      rw [if_neg hc] at hvis
      exact ih vis hin' hvis s

/-- One pass over a table: there is a sequence of descriptions of exactly the defined symbols
of the requested kind (that pass the filter), which is what every callback is fed. -/
theorem pass_reports {σ : Sorter} {t : SymTab} {filter : Sym → Except Err Bool}
    {names : List (SymName × Nat)} (hnames : createStr2sym σ t filter = .ok names)
    (opts : FindAddrOpts) (shdrs : List Shdr) (hgood : GoodNames t)
    (hoff : opts.fileOffset = true → ∀ s ∈ t.syms, Supported s → Defined s →
      ∃ o, fileOffset shdrs s = .ok o) :
    ∃ vis, ReportsExactly t (fun s => HasKind s opts.symType ∧ Defined s ∧ filter s = .ok true)
        (Describes opts shdrs t.strs) vis ∧
      ∀ (S : Type) (f : S → SymInfo → S × Bool) (s : S),
        forEachLoop opts shdrs t f names s = (.ok (), (feed f s vis).1) := by
  obtain ⟨_, hnd, hent, hall⟩ := createStr2sym_ok hnames
  have hex : ∀ l : List (SymName × Nat), (∀ e ∈ l, EntryOf t filter e) →
      (∀ e ∈ l, ∃ s, t.syms[e.2]? = some s ∧ Defined s) → ∃ vis : List SymInfo,
      List.Forall₂ (fun e r => ∃ s, t.syms[e.2]? = some s ∧
        mkSymInfo opts shdrs t.strs e.1 s = .ok r) l vis := by
    intro l
    induction l with
    | nil => exact fun _ _ => ⟨[], .nil⟩
    | cons e rest ih =>
      intro h hdef
      obtain ⟨vis, hv⟩ := ih (fun e he => h e (by simp [he])) (fun e he => hdef e (by simp [he]))
      obtain ⟨s, g1, g2, g3, g4⟩ := h e (by simp)
      obtain ⟨s', g1', g5⟩ := hdef e (by simp)
      rw [g1] at g1'; cases g1'
      have hmem := List.mem_of_getElem? g1
      obtain ⟨n, hn, hu⟩ := hgood s hmem g2
      have hnn := nameAt_unique g4 hn
      obtain ⟨r, hr⟩ := mkSymInfo_succeeds (opts := opts) (shdrs := shdrs) (strs := t.strs)
        (n := e.1) (s := s) (by rw [hnn]; exact hu) g2 (fun ho => hoff ho s hmem g2 g5)
      exact ⟨r :: vis, .cons ⟨s, g1, hr⟩ hv⟩
  obtain ⟨vis, hv⟩ := hex (names.filter (wanted opts t)) (fun e he => hent e (List.mem_filter.mp he).1) (by
    intro e he
    obtain ⟨h1, h2⟩ := List.mem_filter.mp he
    obtain ⟨s, g1, _⟩ := hent e h1
    refine ⟨s, g1, ?_⟩
    simp only [wanted, g1] at h2
    simp only [Bool.and_eq_true, bne_iff_ne] at h2
    exact h2.2)
  refine ⟨vis, ⟨(names.filter (wanted opts t)).map Prod.snd, hnd.sublist (List.Sublist.map _ List.filter_sublist),
    ?_, ?_⟩, ?_⟩
  rotate_left
  · rw [forall2_map_left]
    refine forall2_imp_mem hv ?_
    rintro e r he ⟨s, hs', hmk⟩
    refine ⟨s, hs', mkSymInfo_ok ?_ hmk⟩
    obtain ⟨s', g1, _, _, g4⟩ := hent e (List.mem_filter.mp he).1
    rw [hs'] at g1; cases g1
    exact g4
  · intro S f s
    exact forEachLoop_feed opts shdrs t f names vis (fun e he => by
      obtain ⟨s, g1, _⟩ := hent e he; exact ⟨s, g1⟩) hv s
  · intro i
    simp only [List.mem_map, List.mem_filter]
    constructor
    · rintro ⟨e, ⟨h1, h2⟩, rfl⟩
      obtain ⟨s, g1, g2, g3, g4⟩ := hent e h1
      simp only [wanted, g1] at h2
      simp only [Bool.and_eq_true, bne_iff_ne, matches_iff] at h2
      exact ⟨s, g1, h2.1, h2.2, g3⟩
    · rintro ⟨s, hi, hk, hd, hf⟩
      obtain ⟨e, he, hei⟩ := List.mem_map.mp (hall i s hi (hasKind_supported hk) hf)
      refine ⟨e, ⟨he, ?_⟩, hei⟩
      simp only [wanted, hei, hi, Bool.and_eq_true, bne_iff_ne, matches_iff]
      exact ⟨hk, hd⟩

theorem feed_true {S : Type} {f : S → SymInfo → S × Bool} {s s' : S} {x : SymInfo}
    (h : f s x = (s', true)) (xs : List SymInfo) : feed f s (x :: xs) = (s', true) := by
  unfold feed; rw [h]

theorem feed_false {S : Type} {f : S → SymInfo → S × Bool} {s s' : S} {x : SymInfo}
    (h : f s x = (s', false)) (xs : List SymInfo) : feed f s (x :: xs) = feed f s' xs := by
  rw [feed, h]

theorem feed_append {S : Type} (f : S → SymInfo → S × Bool) (s : S) (a b : List SymInfo) :
    feed f s (a ++ b) = if (feed f s a).2 then feed f s a else feed f (feed f s a).1 b := by
  induction a generalizing s with
  | nil => rfl
  | cons x xs ih =>
    obtain ⟨s', c, hf⟩ : ∃ s' c, f s x = (s', c) := ⟨_, _, rfl⟩
    cases c with
    | true => rw [List.cons_append, feed_true hf, feed_true hf]; rfl
    | false => rw [List.cons_append, feed_false hf, feed_false hf, ih]

/-- **C45** iterating the symbols of an ELF file: there are two sequences, describing exactly
the defined symbols of the requested kind of `.symtab` and those of `.dynsym` not subsumed by
`.symtab`, which do not depend on the callback, such that the callback is fed the first until
it asks to stop, and then — regardless — the second until it asks to stop.
The part of the claim that fails is early exit across the two tables:
`C45_break_ignored`. -/
theorem C45_for_each_elf_partial (σ : Sorter) (file : File) (symtab dynsym : SymTab)
    (shdrs : List Shdr) (hs : file.shdrs = .ok shdrs) (h1 : file.symtab = .ok symtab)
    (h2 : file.dynsym = .ok dynsym) (opts : FindAddrOpts)
    (hw : NoWrap symtab.syms) (hn1 : GoodNames symtab) (hn2 : GoodNames dynsym)
    (hoff : opts.fileOffset = true → ∀ s, s ∈ symtab.syms ∨ s ∈ dynsym.syms → Supported s →
      Defined s → ∃ o, fileOffset shdrs s = .ok o) :
    ∃ vis1 vis2,
      ReportsExactly symtab (fun s => HasKind s opts.symType ∧ Defined s)
        (Describes opts shdrs symtab.strs) vis1 ∧
      ReportsExactly dynsym (fun s => HasKind s opts.symType ∧ Defined s ∧
          ∀ ty, KindOf s ty → ∀ r, symtab.lookup σ .symtab s.value ty ≠ .ok (some r))
        (Describes opts shdrs dynsym.strs) vis2 ∧
      ∀ (S : Type) (f : S → SymInfo → S × Bool) (s : S),
        file.forEach σ opts f s = (.ok (), (feed f (feed f s vis1).1 vis2).1) ∧
        ((feed f s vis1).2 = false →
          file.forEach σ opts f s = (.ok (), (feed f s (vis1 ++ vis2)).1)) := by
  cases ha : str2symtab σ symtab with
  | error e =>
    exfalso
    obtain ⟨s, hs, hsup, h⟩ := createStr2sym_error ha
    obtain ⟨n, hn, _⟩ := hn1 s hs hsup
    rcases h with h | ⟨_, _, h⟩
    · simp at h
    · exact absurd hn (h n)
  | ok names =>
    have hfilter : ∀ s, Supported s → (notInSymtab σ symtab s = .ok true ↔
        ∀ ty, KindOf s ty → ∀ r, symtab.lookup σ .symtab s.value ty ≠ .ok (some r)) := by
      intro s hsup
      obtain ⟨ty, hty, _⟩ := tryFrom_some s hsup
      have hkind : ∀ ty', KindOf s ty' ↔ ty' = ty := by
        intro ty'
        rw [type_eq] at hty
        unfold KindOf
        unfold Supported at hsup
        rcases hsup with h | h | h | h <;> rw [h] at hty <;>
          simp [tryFromElfType, STT_FUNC, STT_GNU_IFUNC, STT_NOTYPE, STT_OBJECT] at hty <;>
          subst hty <;> simp [h]
      unfold notInSymtab
      rw [hty]
      simp only
      constructor
      · intro h ty' hk r hr
        rw [hkind] at hk; subst hk
        rw [hr] at h; simp at h
      · intro h
        have h := h ty ((hkind ty).mpr rfl)
        split
        · rename_i r hr; exact absurd hr (h r)
        · rfl
        · rename_i hp
          obtain ⟨s', hs', hsup', _, hc⟩ := C04_lookup_error _ _ _ _ _ _ hp
          rcases hc with ⟨_, hc⟩ | ⟨hc, _⟩ | ⟨hc, _⟩
          · have := hw s' hs' hsup'; omega
          · simp at hc
          · simp at hc
        · rfl
    cases hb : str2dynsym σ symtab dynsym with
    | error e =>
      exfalso
      obtain ⟨s, hs, hsup, h⟩ := createStr2sym_error hb
      obtain ⟨n, hn, _⟩ := hn2 s hs hsup
      rcases h with h | ⟨_, _, h⟩
      · obtain ⟨ty, hty, _⟩ := tryFrom_some s hsup
        unfold notInSymtab at h
        rw [hty] at h
        simp only at h
        split at h
        · simp at h
        · simp at h
        · rename_i hp
          obtain ⟨s', hs', hsup', _, hc⟩ := C04_lookup_error _ _ _ _ _ _ hp
          rcases hc with ⟨_, hc⟩ | ⟨hc, _⟩ | ⟨hc, _⟩
          · have := hw s' hs' hsup'; omega
          · simp at hc
          · simp at hc
        · simp at h
      · exact absurd hn (h n)
    | ok names' =>
      obtain ⟨vis1, hv1, hf1⟩ := pass_reports ha opts shdrs hn1
        (fun ho s hs => hoff ho s (Or.inl hs))
      obtain ⟨vis2, hv2, hf2⟩ := pass_reports hb opts shdrs hn2
        (fun ho s hs => hoff ho s (Or.inr hs))
      have hmain : ∀ (S : Type) (f : S → SymInfo → S × Bool) (s : S),
          file.forEach σ opts f s = (.ok (), (feed f (feed f s vis1).1 vis2).1) := by
        intro S f s
        unfold File.forEach File.forEachSymtab File.forEachDynsym forEachImpl
        rw [h1, h2, hs]
        simp only [ha, hb, hf1, hf2]
      refine ⟨vis1, vis2, ?_, ?_, fun S f s => ⟨hmain S f s, fun hnb => ?_⟩⟩
      · simpa only [and_true] using hv1
      · obtain ⟨is, k1, k2, k3⟩ := hv2
        refine ⟨is, k1, ?_, k3⟩
        intro i
        rw [k2]
        constructor
        · rintro ⟨s, hi, a, b, c⟩
          exact ⟨s, hi, a, b, (hfilter s (hasKind_supported a)).mp c⟩
        · rintro ⟨s, hi, a, b, c⟩
          exact ⟨s, hi, a, b, (hfilter s (hasKind_supported a)).mpr c⟩
      · rw [hmain, feed_append, hnb]; rfl

/-- **C45** (errors of ELF files): going through the symbols only succeeds if both symbol tables and the section
headers can be read.  If the first symbol table cannot be read, or its names can but the section headers cannot,
that is the error, and the callback is not called. -/
theorem C45_for_each_elf_errors (σ : Sorter) (file : File) (opts : FindAddrOpts) (S : Type)
    (f : S → SymInfo → S × Bool) (s : S) :
    (∀ (s' : S), file.forEach σ opts f s = (.ok (), s') →
      (∃ symtab, file.symtab = .ok symtab) ∧ (∃ dynsym, file.dynsym = .ok dynsym) ∧ ∃ shdrs, file.shdrs = .ok shdrs) ∧
    (∀ e, file.symtab = .error e → file.forEach σ opts f s = (.error e, s)) ∧
    (∀ e symtab, file.symtab = .ok symtab → GoodNames symtab → file.shdrs = .error e →
      file.forEach σ opts f s = (.error e, s)) := by
  refine ⟨?_, ?_, ?_⟩
  · intro s' h
    unfold File.forEach at h
    split at h
    · simp at h
    · rename_i s1 h1
      unfold File.forEachSymtab at h1
      unfold File.forEachDynsym at h
      cases hs : file.symtab with
      | error e => rw [hs] at h1; simp at h1
      | ok symtab =>
        cases hd : file.dynsym with
        | error e => rw [hs, hd] at h; simp at h
        | ok dynsym =>
          refine ⟨⟨_, rfl⟩, ⟨_, rfl⟩, ?_⟩
          rw [hs] at h1
          simp only at h1
          split at h1
          · simp at h1
          · unfold forEachImpl at h1
            cases hh : file.shdrs with
            | error e => rw [hh] at h1; simp at h1
            | ok shdrs => exact ⟨_, rfl⟩
  · intro e h
    unfold File.forEach File.forEachSymtab
    rw [h]
  · intro e symtab hs hn he
    unfold File.forEach File.forEachSymtab forEachImpl
    rw [hs, he]
    simp only
    cases ha : str2symtab σ symtab with
    | error e' =>
      exfalso
      obtain ⟨x, hx, hsup, h⟩ := createStr2sym_error ha
      obtain ⟨n, hn', _⟩ := hn x hx hsup
      rcases h with h | ⟨_, _, h⟩
      · simp at h
      · exact absurd hn' (h n)
    | ok names => rfl

/-- A small file: `foo` in `.symtab`, `bar` in `.dynsym` only. -/
def twoTables : File where
  shdrs := .ok []
  phdrs := .ok []
  symtab := .ok ⟨[⟨1, 2, 0, 1, 0x1000, 16⟩], [0, 102, 111, 111, 0]⟩
  dynsym := .ok ⟨[⟨1, 2, 0, 1, 0x3000, 8⟩], [0, 98, 97, 114, 0]⟩

theorem twoTables_good1 : GoodNames ⟨[⟨1, 2, 0, 1, 0x1000, 16⟩], [0, 102, 111, 111, 0]⟩ := by
  intro s hs _
  simp only [List.mem_cons, List.not_mem_nil, or_false] at hs
  subst hs
  exact ⟨[102, 111, 111], ⟨_, rfl, by decide⟩, by decide⟩

theorem twoTables_good2 : GoodNames ⟨[⟨1, 2, 0, 1, 0x3000, 8⟩], [0, 98, 97, 114, 0]⟩ := by
  intro s hs _
  simp only [List.mem_cons, List.not_mem_nil, or_false] at hs
  subst hs
  exact ⟨[98, 97, 114], ⟨_, rfl, by decide⟩, by decide⟩

/-- A file whose section headers cannot be read. -/
example (σ : Sorter) : { twoTables with shdrs := .error .invalidData }.forEach σ ⟨false, .undefined⟩
    (fun (n : Nat) _ => (n + 1, false)) 0 = (.error .invalidData, 0) :=
  (C45_for_each_elf_errors σ { twoTables with shdrs := .error .invalidData } _ _ _ _).2.2 _ _ rfl twoTables_good1 rfl

/-- **C45** (defect: early exit is not honoured across tables): a callback that asks to stop at
the very first symbol is called again for `.dynsym`. -/
theorem C45_break_ignored (σ : Sorter) :
    twoTables.forEach σ ⟨false, .undefined⟩ (fun (n : Nat) _ => (n + 1, true)) 0 = (.ok (), 2) := by
  obtain ⟨vis1, vis2, ⟨is1, _, m1, f1⟩, ⟨is2, _, m2, f2⟩, h⟩ :=
    C45_for_each_elf_partial σ twoTables _ _ [] rfl rfl rfl ⟨false, .undefined⟩
      (by simp [NoWrap]) twoTables_good1 twoTables_good2 (by simp)
  have h := (h Nat (fun n _ => (n + 1, true)) 0).1
  rw [h]
  have e1 : 0 ∈ is1 := (m1 0).mpr ⟨⟨1, 2, 0, 1, 0x1000, 16⟩, rfl, by simp [HasKind, Supported],
    by simp [Defined]⟩
  have e2 : 0 ∈ is2 := (m2 0).mpr ⟨⟨1, 2, 0, 1, 0x3000, 8⟩, rfl, by simp [HasKind, Supported],
    by simp [Defined], by
      intro ty _ r hr
      obtain ⟨⟨s, hs, _, _, hc, _⟩, _⟩ := C04_lookup_sound _ _ _ _ _ _ hr
      simp only [List.mem_cons, List.not_mem_nil, or_false] at hs
      subst hs
      simp [Covers] at hc⟩
  cases is1 with
  | nil => simp at e1
  | cons a as =>
    cases is2 with
    | nil => simp at e2
    | cons b bs =>
      cases f1; cases f2
      rfl

/-- The hypotheses of `C08_find_addr_succeeds` and `C08_find_addr_symtab` are met. -/
example (σ : Sorter) : ∃ res, twoTables.findAddr σ [102, 111, 111] ⟨false, .undefined⟩ = .ok res ∧
    res.length = 1 := by
  obtain ⟨res, h⟩ := C08_find_addr_succeeds σ twoTables _ _ [] rfl rfl rfl [102, 111, 111]
    (by decide) ⟨false, .undefined⟩ (by simp) (by simp [NoWrap]) twoTables_good1 twoTables_good2
  have hname : NameAt [0, 102, 111, 111, 0] 1 [102, 111, 111] := ⟨_, rfl, by decide⟩
  obtain ⟨is, hnd, hm, hf⟩ := C08_find_addr_symtab σ twoTables _ [] rfl rfl [102, 111, 111] _ res h
    ⟨⟨1, 2, 0, 1, 0x1000, 16⟩, by simp, by simp [Supported], by simp [Defined], hname⟩
  refine ⟨res, h, ?_⟩
  rw [← hf.length_eq]
  have hmem : ∀ i, i ∈ is ↔ i = 0 := by
    intro i
    rw [hm i]
    constructor
    · rintro ⟨s, hs, _⟩
      have := (List.getElem?_eq_some_iff.mp hs).1
      simpa using this
    · rintro rfl
      exact ⟨⟨1, 2, 0, 1, 0x1000, 16⟩, rfl, by simp [Supported], by simp [Defined], hname⟩
  have : is.Perm [0] := (List.perm_ext_iff_of_nodup hnd (by simp)).mpr (by simpa using hmem)
  simpa using this.length_eq

end Blazesym.Elf
