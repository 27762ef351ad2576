import Verif.TwoWay.Spec
import Verif.Elf.NameProps
import Verif.Breakpad.NameProps
import Verif.Kernel.KsymProps

/-! # C98: names lead to addresses and addresses lead to names

Looking up a name and symbolizing one of the addresses that were reported for it leads to a
symbol that starts at this address; looking up the name of a symbol that was found for an address
leads to this symbol. -/

set_option autoImplicit false

namespace Blazesym.TwoWay
open Blazesym.Elf Blazesym.Spec Blazesym.Spec.Elf Blazesym.Spec.TwoWay

/-- At the start of a symbol a lookup in its table finds one that starts there and is as large. -/
theorem lookup_at_start (σ : Sorter) (t : SymTab) (table : Table) (s : Sym) (hs : s ∈ t.syms)
    (hsup : Supported s) (hd : Defined s) (hw : NoWrap t.syms) (hn : GoodNames t) :
    ∃ r, t.lookup σ table s.value .undefined = .ok (some r) ∧ r.addr = s.value ∧
      s.size ≤ r.size.getD 0 := by
  obtain ⟨i, hi⟩ := List.mem_iff_getElem?.mp hs
  have hnear : NearestStart t.syms s.value s.value := ⟨le_refl _, ⟨s, hs, hsup, rfl⟩, fun _ _ _ h => h⟩
  have hc : Covers table s s.value := by
    refine ⟨le_refl _, ?_⟩
    split
    · exact .inr rfl
    · omega
  cases hr : t.lookup σ table s.value .undefined with
  | error e =>
    obtain ⟨s', hs', hsup', _, h⟩ := C04_lookup_error σ t table s.value .undefined e hr
    obtain ⟨n, hn1, hn2⟩ := hn s' hs' hsup'
    rcases h with ⟨_, h⟩ | ⟨_, _, _, _, h⟩ | ⟨_, _, _, _, n', h1, h2⟩
    · have := hw s' hs' hsup'; omega
    · exact absurd hn1 (h n)
    · rw [nameAt_unique h1 hn1, hn2] at h2; simp at h2
  | ok o =>
    cases o with
    | none =>
      exact absurd hr (C05_complete_partial σ t table s.value .undefined i s hi hnear hd hsup hc (.inl rfl))
    | some r =>
      obtain ⟨a1, _, e1⟩ := (C04_lookup_sound σ t table s.value .undefined r hr).2
      have ha : r.addr = s.value := by
        have := e1 s hs hsup (le_refl _)
        omega
      exact ⟨r, rfl, ha, C04_lookup_largest σ t table s.value .undefined r hr (.inl ha) s hs hd hsup hc ha.symm⟩

theorem forall₂_exists {α β : Type} {R : α → β → Prop} {l : List α} {m : List β} (h : List.Forall₂ R l m) :
    (∀ b ∈ m, ∃ a ∈ l, R a b) ∧ ∀ a ∈ l, ∃ b ∈ m, R a b := by
  induction h with
  | nil => simp
  | cons h1 _ ih =>
    obtain ⟨i1, i2⟩ := ih
    constructor
    · intro b hb
      rcases List.mem_cons.mp hb with rfl | hb
      · exact ⟨_, List.mem_cons_self, h1⟩
      · obtain ⟨a, ha, h⟩ := i1 b hb; exact ⟨a, List.mem_cons_of_mem _ ha, h⟩
    · intro a ha
      rcases List.mem_cons.mp ha with rfl | ha
      · exact ⟨_, List.mem_cons_self, h1⟩
      · obtain ⟨b, hb, h⟩ := i2 a ha; exact ⟨b, List.mem_cons_of_mem _ hb, h⟩

theorem reportsExactly_mem {t : SymTab} {P : Sym → Prop} {D : Sym → SymInfo → Prop} {res : List SymInfo}
    (h : ReportsExactly t P D res) :
    (∀ info ∈ res, ∃ s ∈ t.syms, P s ∧ D s info) ∧ ∀ s ∈ t.syms, P s → ∃ info ∈ res, D s info := by
  obtain ⟨is, _, hm, hf⟩ := h
  obtain ⟨f1, f2⟩ := forall₂_exists hf
  constructor
  · intro info hi
    obtain ⟨i, hi, s, hs, hd⟩ := f1 info hi
    obtain ⟨s', hs', hp⟩ := (hm i).mp hi
    rw [hs] at hs'
    cases hs'
    exact ⟨s, List.mem_of_getElem? hs, hp, hd⟩
  · intro s hs hp
    obtain ⟨i, hi⟩ := List.mem_iff_getElem?.mp hs
    obtain ⟨info, hinfo, s', hs', hd⟩ := f2 i ((hm i).mpr ⟨s, hi, hp⟩)
    rw [hi] at hs'
    cases hs'
    exact ⟨info, hinfo, hd⟩

/-- **C98** (ELF, from names to addresses, what holds): if `.symtab` has the name, or nothing in
`.symtab` covers the reported address, symbolizing an address that was reported for a name gives a
symbol that starts there and is not smaller.  Without this condition the claim is false, see
`C98_elf_wrong`. -/
theorem C98_elf_by_name_partial (σ : Sorter) (file : File) (symtab dynsym : SymTab) (shdrs : List Shdr)
    (hs : file.shdrs = .ok shdrs) (h1 : file.symtab = .ok symtab) (h2 : file.dynsym = .ok dynsym)
    (hw1 : NoWrap symtab.syms) (hw2 : NoWrap dynsym.syms) (hn1 : GoodNames symtab) (hn2 : GoodNames dynsym)
    (name : Bytes) (opts : FindAddrOpts) (res : List SymInfo) (h : file.findAddr σ name opts = .ok res)
    (info : SymInfo) (hi : info ∈ res)
    (hcond : (∃ s ∈ symtab.syms, Supported s ∧ Defined s ∧ NameAt symtab.strs s.name name) ∨
      ∀ s ∈ symtab.syms, Supported s → Defined s → ¬ Covers .symtab s info.addr) :
    ∃ r, file.findSym σ info.addr = .ok (.ok r) ∧ StartsThere info r := by
  have hfile := C04_file_find_sym σ file symtab dynsym h1 h2 info.addr
  by_cases hex : ∃ s ∈ symtab.syms, Supported s ∧ Defined s ∧ NameAt symtab.strs s.name name
  · obtain ⟨s, hsm, ⟨p1, p2, _⟩, _, d2, d3, _⟩ :=
      (reportsExactly_mem (C08_find_addr_symtab σ file symtab shdrs hs h1 name opts res h hex)).1 info hi
    obtain ⟨r, hr, a1, a2⟩ := lookup_at_start σ symtab .symtab s hsm p1 p2 hw1 hn1
    rw [← d2] at hr a1
    exact ⟨r, hfile.1 r hr, a1, by rw [d3]; exact a2⟩
  · have hno : ∀ s ∈ symtab.syms, Supported s → Defined s → ¬ NameAt symtab.strs s.name name :=
      fun s a b c d => hex ⟨s, a, b, c, d⟩
    have hcov := hcond.resolve_left hex
    obtain ⟨s, hsm, ⟨p1, p2, _⟩, _, d2, d3, _⟩ :=
      (reportsExactly_mem (C08_find_addr_dynsym_partial σ file symtab dynsym shdrs hs h1 h2 name opts res h hno)).1
        info hi
    obtain ⟨r, hr, a1, a2⟩ := lookup_at_start σ dynsym .dynsym s hsm p1 p2 hw2 hn2
    rw [← d2] at hr a1
    have hnone : symtab.lookup σ .symtab info.addr .undefined = .ok none := by
      cases hl : symtab.lookup σ .symtab info.addr .undefined with
      | error e =>
        obtain ⟨s', hs', hsup', _, h⟩ := C04_lookup_error σ symtab .symtab info.addr .undefined e hl
        obtain ⟨n, hn1, hn2⟩ := hn1 s' hs' hsup'
        rcases h with ⟨_, h⟩ | ⟨_, _, _, _, h⟩ | ⟨_, _, _, _, n', h1, h2⟩
        · have := hw1 s' hs' hsup'; omega
        · exact absurd hn1 (h n)
        · rw [nameAt_unique h1 hn1, hn2] at h2; simp at h2
      | ok o =>
        cases o with
        | none => rfl
        | some r' =>
          obtain ⟨s', hs', c1, c2, c3, _⟩ := (C04_lookup_sound σ symtab .symtab info.addr .undefined r' hl).1
          exact absurd c3 (hcov s' hs' c2 c1)
    exact ⟨r, (hfile.2.2 hnone).1 r hr, a1, by rw [d3]; exact a2⟩

/-- **C98** (ELF, from addresses to names, what holds): the name of a symbol of `.symtab` that was
found for an address leads back to this symbol. -/
theorem C98_elf_by_address_partial (σ : Sorter) (file : File) (symtab : SymTab) (shdrs : List Shdr)
    (hs : file.shdrs = .ok shdrs) (h1 : file.symtab = .ok symtab) (addr : Nat) (r : ResolvedSym)
    (hr : file.findSym σ addr = .ok (.ok r))
    (hcov : ∃ q, symtab.lookup σ .symtab addr .undefined = .ok (some q))
    (opts : FindAddrOpts) (res : List SymInfo) (h : file.findAddr σ r.name opts = .ok res) :
    Lists res r.name r.addr (r.size.getD 0) := by
  obtain ⟨q, hq⟩ := hcov
  have e : q = r := by
    unfold File.findSym at hr
    rw [h1] at hr
    simp only [bind, Except.bind, pure, Except.pure, hq, Except.ok.injEq] at hr
    exact hr
  subst e
  obtain ⟨s, hsm, c1, c2, _, c4, _, c6, c7, c8⟩ := (C04_lookup_sound σ symtab .symtab addr .undefined q hq).1
  obtain ⟨info, hi, d1, d2, d3, _⟩ :=
    (reportsExactly_mem (C08_find_addr_symtab σ file symtab shdrs hs h1 q.name opts res h
      ⟨s, hsm, c2, c1, c4⟩)).2 s hsm ⟨c2, c1, c4⟩
  refine ⟨info, hi, nameAt_unique d1 c4, by rw [d2, c6], ?_⟩
  rw [d3]
  by_cases hz : s.size = 0
  · rw [c7 hz]; exact hz
  · rw [c8 hz]

/-- **C98** (Breakpad, from names to addresses): symbolizing an address that was reported for a
name gives a function that starts there (and, of several that do, a smallest one), provided that
no function or line record extends beyond the address space. -/
theorem C98_breakpad_by_name {file : Breakpad.SymbolFile} (hl : Breakpad.Loaded file) (name : Bytes)
    (ty : SymType) (res : List SymInfo) (h : file.lookupName name ty = .ok res) (info : SymInfo) (hi : info ∈ res)
    (ho : ∀ f ∈ file.functions, f.addr + f.size < 2 ^ 64)
    (hol : ∀ f ∈ file.functions, ∀ l ∈ f.lines, l.addr + l.size < 2 ^ 64) :
    ∃ r, file.findSym info.addr .basic = .ok (.ok r) ∧ r.addr = info.addr ∧
      r.size.getD 0 ≤ info.size.getD 0 := by
  obtain ⟨v, nv⟩ := Breakpad.C56_name_lookup hl name ty
  have hty : ty ≠ .variable := by
    rintro rfl
    rw [v rfl] at h
    cases h
  obtain ⟨res', e, hf⟩ := nv hty
  rw [h] at e
  cases e
  obtain ⟨f, hf1, _, d2, d3, _⟩ := (forall₂_exists hf).1 info hi
  have hfm := (List.mem_filter.mp hf1).1
  have hcover : Spec.Breakpad.Covers f.addr f.size info.addr := by
    unfold Spec.Breakpad.Covers
    rw [d2]
    by_cases hz : f.size = 0
    · exact .inl ⟨rfl, hz⟩
    · exact .inr ⟨le_refl _, by omega⟩
  have hff : Spec.Breakpad.FunctionFor file info.addr f :=
    ⟨hfm, hcover, by omega, fun e _ he => by omega⟩
  rcases Breakpad.C21_found_partial hl .basic (addr := info.addr) (fun e he _ => ho e he)
    (fun g hg e he _ => hol g hg e he) ⟨f, hff⟩ with ⟨sym, hsym⟩ | ⟨hc, _⟩
  · refine ⟨sym, hsym, ?_⟩
    unfold Breakpad.SymbolFile.findSym at hsym
    split at hsym
    · cases hsym
    · cases hsym
    · rename_i g hg
      split at hsym
      · cases hsym
      · rename_i s hs
        have h' : s = sym := by simpa using hsym
        subst h'
        obtain ⟨_, _, e2, e3⟩ := Breakpad.fillCodeInfo_keeps hs
        obtain ⟨hg1, hg2, hg3⟩ := Breakpad.findFunction_some hl hg
        have a : g.addr ≤ info.addr := hg3.1
        have b : f.addr ≤ g.addr := hg3.2 f hfm (le_of_eq d2.symm)
        have e : g.addr = info.addr := by omega
        refine ⟨by rw [e2]; exact e, ?_⟩
        have := (Breakpad.C21_same_start hl (fun e he _ => ho e he) hg).1 (.inl e) f hfm (by omega) hcover
        rw [e3, d3]
        exact this
  · exact absurd rfl hc

/-- **C98** (Breakpad, from addresses to names): the name of the function that was found for an
address leads back to this function. -/
theorem C98_breakpad_by_address {file : Breakpad.SymbolFile} (hl : Breakpad.Loaded file) (addr : Nat)
    (opts : Symbolize.FindSymOpts) (r : Symbolize.ResolvedSym) (hr : file.findSym addr opts = .ok (.ok r))
    (ty : SymType) (hty : ty ≠ .variable) :
    ∃ res, file.lookupName r.name ty = .ok res ∧ Lists res r.name r.addr (r.size.getD 0) := by
  obtain ⟨f, ⟨hf, _⟩, e1, e2, e3, _⟩ := Breakpad.C21_sound hl hr
  obtain ⟨res, h, h2⟩ := (Breakpad.C56_name_lookup hl r.name ty).2 hty
  refine ⟨res, h, ?_⟩
  obtain ⟨info, hi, d1, d2, d3, _⟩ := (forall₂_exists h2).2 f (List.mem_filter.mpr ⟨hf, by simp [e1]⟩)
  exact ⟨info, hi, by rw [d1, e1], by rw [d2, e2], by rw [d3, e3]⟩

/-- **C98** (kernel symbols, from names to addresses): symbolizing an address that was reported
for a name gives a symbol that starts there. -/
theorem C98_ksym_by_name {syms : List Kernel.Ksym} (hl : Kernel.Loaded syms) (name : Bytes) (ty : SymType)
    (info : Kernel.KsymInfo) (hi : info ∈ Kernel.ksymFindAddr syms name ty) :
    ∃ k, Kernel.findKsym syms info.info.addr = .ok k ∧ k.addr = info.info.addr := by
  have hty : ty ≠ .variable := by
    rintro rfl
    rw [Kernel.C31_variables] at hi
    cases hi
  obtain ⟨k, hk, _, d2, _⟩ := (Kernel.C31_name_lookup_partial syms name ty hty).2 info hi
  obtain ⟨k', hk'⟩ := (Kernel.C30_unknown hl info.info.addr).1.mpr ⟨k, hk, by omega⟩
  refine ⟨k', hk', ?_⟩
  obtain ⟨_, a, b⟩ := Kernel.C30_lookup hl _ _ hk'
  have := b k hk (by omega)
  omega

/-- **C98** (kernel symbols, from addresses to names): the name of the symbol that was found for
an address leads back to this symbol. -/
theorem C98_ksym_by_address {syms : List Kernel.Ksym} (hl : Kernel.Loaded syms) (addr : Nat) (k : Kernel.Ksym)
    (hk : Kernel.findKsym syms addr = .ok k) (ty : SymType) (hty : ty ≠ .variable) :
    ∃ info ∈ Kernel.ksymFindAddr syms k.name ty, info.info.name = k.name ∧ info.info.addr = k.addr := by
  obtain ⟨info, hi, a, b, _⟩ :=
    (Kernel.C31_name_lookup_partial syms k.name ty hty).1 k (Kernel.C30_lookup hl addr k hk).1 rfl
  exact ⟨info, hi, a, b⟩

/-! ### What does not hold for ELF files with two tables -/

/-- A file with a variable of unknown size, `bar`, in `.symtab` and a function `foo` above it that
is in `.dynsym` only. -/
def shadowed : File where
  shdrs := .ok []
  phdrs := .ok []
  symtab := .ok ⟨[⟨1, 1, 0, 1, 0x1000, 0⟩], [0, 98, 97, 114, 0]⟩
  dynsym := .ok ⟨[⟨1, 2, 0, 1, 0x2000, 16⟩], [0, 102, 111, 111, 0]⟩

theorem good_bar (info value size : Nat) : GoodNames ⟨[⟨1, info, 0, 1, value, size⟩], [0, 98, 97, 114, 0]⟩ := by
  intro s hs _
  simp only [List.mem_cons, List.not_mem_nil, or_false] at hs
  subst hs
  exact ⟨[98, 97, 114], ⟨_, rfl, by decide⟩, by decide⟩

theorem good_foo (info value size : Nat) : GoodNames ⟨[⟨1, info, 0, 1, value, size⟩], [0, 102, 111, 111, 0]⟩ := by
  intro s hs _
  simp only [List.mem_cons, List.not_mem_nil, or_false] at hs
  subst hs
  exact ⟨[102, 111, 111], ⟨_, rfl, by decide⟩, by decide⟩

theorem name_foo : NameAt [0, 102, 111, 111, 0] 1 [102, 111, 111] := ⟨_, rfl, by decide⟩
theorem name_bar : NameAt [0, 98, 97, 114, 0] 1 [98, 97, 114] := ⟨_, rfl, by decide⟩

/-- **C98** (defect): `foo` is found by name at 0x2000, but symbolizing 0x2000 gives another
symbol, a variable that starts at 0x1000: name lookup sets aside symbols of `.dynsym` only if
`.symtab` has one of the same kind there, address lookup prefers `.symtab` whatever the kind. -/
theorem C98_elf_wrong (σ : Sorter) :
    (∃ res, shadowed.findAddr σ [102, 111, 111] ⟨false, .undefined⟩ = .ok res ∧
      ∃ info ∈ res, info.addr = 0x2000 ∧ info.symType = .function) ∧
    ∃ r, shadowed.findSym σ 0x2000 = .ok (.ok r) ∧ r.addr = 0x1000 := by
  constructor
  · obtain ⟨res, h⟩ := C08_find_addr_succeeds σ shadowed _ _ [] rfl rfl rfl [102, 111, 111]
      (by decide) ⟨false, .undefined⟩ (by simp) (by simp [NoWrap]) (good_bar _ _ _) (good_foo _ _ _)
    refine ⟨res, h, ?_⟩
    have hx := (reportsExactly_mem (C08_find_addr_dynsym_partial σ shadowed _ _ [] rfl rfl rfl [102, 111, 111] _ res h
      (by
        intro s hs _ _ hn
        simp only [List.mem_cons, List.not_mem_nil, or_false] at hs
        subst hs
        exact absurd (nameAt_unique hn name_bar) (by decide)))).2 ⟨1, 2, 0, 1, 0x2000, 16⟩ (by simp)
      ⟨by simp [Supported], by simp [Defined], name_foo, by
        intro ty hk r hr
        obtain ⟨s, hs, _, c2, _⟩ := (C04_lookup_sound _ _ _ _ _ _ hr).1
        simp only [List.mem_cons, List.not_mem_nil, or_false] at hs
        subst hs
        simp [KindOf] at hk
        subst hk
        simp [HasKind] at c2⟩
    obtain ⟨info, hi, _, d2, _, d4, _⟩ := hx
    exact ⟨info, hi, d2, by simpa [KindOf] using d4⟩
  · obtain ⟨r, hr, ha⟩ := C05_found_partial σ ⟨[⟨1, 1, 0, 1, 0x1000, 0⟩], [0, 98, 97, 114, 0]⟩ .symtab 0x2000
      .undefined 0 ⟨1, 1, 0, 1, 0x1000, 0⟩ rfl (by simp [NearestStart, Supported]) (by simp [Defined])
      (by simp [HasKind, Supported]) (by simp [Covers]) (.inr (.inr (by
        intro j s' hj hs'
        match j, hs' with
        | 0, _ => exact absurd rfl hj)))
      (by simp [NoWrap]) (fun s hs => good_bar _ _ _ s hs (by
        simp only [List.mem_cons, List.not_mem_nil, or_false] at hs
        subst hs
        simp [Supported]))
    exact ⟨r, (C04_file_find_sym σ shadowed _ _ rfl rfl 0x2000).1 r hr, ha⟩

/-- A file with different symbols of one name, `foo`, in its two tables. -/
def sameName : File where
  shdrs := .ok []
  phdrs := .ok []
  symtab := .ok ⟨[⟨1, 2, 0, 1, 0x1000, 16⟩], [0, 102, 111, 111, 0]⟩
  dynsym := .ok ⟨[⟨1, 2, 0, 1, 0x2000, 16⟩], [0, 102, 111, 111, 0]⟩

/-- **C98** (defect): at 0x2000 there is a symbol `foo`, but looking up `foo` does not report it:
symbols of `.dynsym` are looked at only if `.symtab` has none of the name. -/
theorem C98_elf_hidden (σ : Sorter) :
    (∃ r, sameName.findSym σ 0x2000 = .ok (.ok r) ∧ r.addr = 0x2000 ∧ r.name = [102, 111, 111]) ∧
    ∃ res, sameName.findAddr σ [102, 111, 111] ⟨false, .undefined⟩ = .ok res ∧ ∀ info ∈ res, info.addr = 0x1000 := by
  constructor
  · obtain ⟨r, hr, ha, _⟩ := lookup_at_start σ ⟨[⟨1, 2, 0, 1, 0x2000, 16⟩], [0, 102, 111, 111, 0]⟩ .dynsym
      ⟨1, 2, 0, 1, 0x2000, 16⟩ (by simp) (by simp [Supported]) (by simp [Defined]) (by simp [NoWrap]) (good_foo _ _ _)
    have hnone : SymTab.lookup σ ⟨[⟨1, 2, 0, 1, 0x1000, 16⟩], [0, 102, 111, 111, 0]⟩ .symtab 0x2000 .undefined =
        .ok none := by
      cases hl : SymTab.lookup σ ⟨[⟨1, 2, 0, 1, 0x1000, 16⟩], [0, 102, 111, 111, 0]⟩ .symtab 0x2000 .undefined with
      | error e =>
        obtain ⟨s, hs, _, _, hc⟩ := C04_lookup_error _ _ _ _ _ _ hl
        simp only [List.mem_cons, List.not_mem_nil, or_false] at hs
        subst hs
        rcases hc with ⟨_, hc⟩ | ⟨_, _, _, hc, _⟩ | ⟨_, _, _, hc, _⟩ <;> simp [Covers] at hc
      | ok o =>
        cases o with
        | none => rfl
        | some q =>
          obtain ⟨s, hs, _, _, hc, _⟩ := (C04_lookup_sound _ _ _ _ _ _ hl).1
          simp only [List.mem_cons, List.not_mem_nil, or_false] at hs
          subst hs
          simp [Covers] at hc
    refine ⟨r, ((C04_file_find_sym σ sameName _ _ rfl rfl 0x2000).2.2 hnone).1 r hr, ha, ?_⟩
    obtain ⟨s, hs, _, _, _, hn, _⟩ := (C04_lookup_sound _ _ _ _ _ _ hr).1
    simp only [List.mem_cons, List.not_mem_nil, or_false] at hs
    subst hs
    exact nameAt_unique hn name_foo
  · obtain ⟨res, h⟩ := C08_find_addr_succeeds σ sameName _ _ [] rfl rfl rfl [102, 111, 111]
      (by decide) ⟨false, .undefined⟩ (by simp) (by simp [NoWrap]) (good_foo _ _ _) (good_foo _ _ _)
    refine ⟨res, h, ?_⟩
    intro info hi
    obtain ⟨s, hs, _, _, d2, _⟩ := (reportsExactly_mem (C08_find_addr_symtab σ sameName _ [] rfl rfl [102, 111, 111] _
      res h ⟨⟨1, 2, 0, 1, 0x1000, 16⟩, by simp, by simp [Supported], by simp [Defined], name_foo⟩)).1 info hi
    simp only [List.mem_cons, List.not_mem_nil, or_false] at hs
    subst hs
    exact d2

/-! ### Concrete cases -/

/-- `bar`, which is in `.dynsym` only, is found by name, and 0x3000 is then found to be its start. -/
example (σ : Sorter) : ∃ res, twoTables.findAddr σ [98, 97, 114] ⟨false, .undefined⟩ = .ok res ∧
    ∃ info ∈ res, ∃ r, twoTables.findSym σ info.addr = .ok (.ok r) ∧ r.addr = 0x3000 := by
  obtain ⟨res, h⟩ := C08_find_addr_succeeds σ twoTables _ _ [] rfl rfl rfl [98, 97, 114]
    (by decide) ⟨false, .undefined⟩ (by simp) (by simp [NoWrap]) twoTables_good1 twoTables_good2
  refine ⟨res, h, ?_⟩
  obtain ⟨info, hi, _, d2, _⟩ := (reportsExactly_mem (C08_find_addr_dynsym_partial σ twoTables _ _ [] rfl rfl rfl
    [98, 97, 114] _ res h (by
      intro s hs _ _ hn
      simp only [List.mem_cons, List.not_mem_nil, or_false] at hs
      subst hs
      exact absurd (nameAt_unique hn name_foo) (by decide)))).2 ⟨1, 2, 0, 1, 0x3000, 8⟩ (by simp)
    ⟨by simp [Supported], by simp [Defined], name_bar, by
      intro ty hk r hr
      obtain ⟨s, hs, _, _, c3, _⟩ := (C04_lookup_sound _ _ _ _ _ _ hr).1
      simp only [List.mem_cons, List.not_mem_nil, or_false] at hs
      subst hs
      simp [Covers] at c3⟩
  obtain ⟨r, hr, hst⟩ := C98_elf_by_name_partial σ twoTables _ _ [] rfl rfl rfl (by simp [NoWrap]) (by simp [NoWrap])
    twoTables_good1 twoTables_good2 _ _ res h info hi (.inr (by
      intro s hs _ _ hc
      simp only [List.mem_cons, List.not_mem_nil, or_false] at hs
      subst hs
      rw [d2] at hc
      simp [Covers] at hc))
  exact ⟨info, hi, r, hr, by rw [hst.1, d2]⟩

/-- In the other direction: 0x1008 is in `foo`, and `foo` leads to 0x1000. -/
example (σ : Sorter) : ∃ r, twoTables.findSym σ 0x1008 = .ok (.ok r) ∧
    ∃ res, twoTables.findAddr σ r.name ⟨false, .undefined⟩ = .ok res ∧ Lists res r.name 0x1000 (r.size.getD 0) := by
  obtain ⟨r, hr, ha⟩ := C05_found_partial σ ⟨[⟨1, 2, 0, 1, 0x1000, 16⟩], [0, 102, 111, 111, 0]⟩ .symtab 0x1008
    .undefined 0 ⟨1, 2, 0, 1, 0x1000, 16⟩ rfl (by simp [NearestStart, Supported]) (by simp [Defined])
    (by simp [HasKind, Supported]) (by simp [Covers]) (.inr (.inr (by
      intro j s' hj hs'
      match j, hs' with
      | 0, _ => exact absurd rfl hj)))
    (by simp [NoWrap]) (fun s hs => good_foo _ _ _ s hs (by
      simp only [List.mem_cons, List.not_mem_nil, or_false] at hs
      subst hs
      simp [Supported]))
  have hf := (C04_file_find_sym σ twoTables _ _ rfl rfl 0x1008).1 r hr
  have hu := ((C04_lookup_sound _ _ _ _ _ _ hr).1.choose_spec).2.2.2.2.2.1
  obtain ⟨res, h⟩ := C08_find_addr_succeeds σ twoTables _ _ [] rfl rfl rfl r.name
    hu ⟨false, .undefined⟩ (by simp) (by simp [NoWrap]) twoTables_good1 twoTables_good2
  have := C98_elf_by_address_partial σ twoTables _ [] rfl rfl 0x1008 r hf ⟨r, hr⟩ _ res h
  rw [ha] at this
  exact ⟨r, hf, res, h, this⟩

/-- Two functions `g` in a Breakpad file, both at their addresses. -/
example : ∀ info ∈ [(⟨ascii "g", 0x20, some 8, .function, none⟩ : SymInfo), ⟨ascii "g", 0x30, some 8, .function, none⟩],
    ∃ r, (Breakpad.load Breakpad.dups).findSym info.addr .basic = .ok (.ok r) ∧ r.addr = info.addr ∧
      r.size.getD 0 ≤ info.size.getD 0 :=
  fun info hi => C98_breakpad_by_name (Breakpad.loaded_of (by decide +kernel)) (ascii "g") .function _
    (by decide +kernel) info hi (by decide +kernel) (by decide +kernel)

/-- A kernel symbol and its alias: the name `beta_alias` leads to an address, which leads to `beta`. -/
example : ∃ k, Kernel.findKsym Kernel.demoKsyms 0xffffffff81000030 = .ok k ∧ k.addr = 0xffffffff81000030 :=
  C98_ksym_by_name ⟨true, _, Kernel.demo_loaded⟩ (ascii "beta_alias") .function
    ⟨⟨ascii "beta_alias", 0xffffffff81000030, none, .function, none⟩, none⟩ (by decide +kernel)

end Blazesym.TwoWay
