import Verif.Dwarf.TotalProps

/-! # A file whose DWARF data is in order: the hypotheses of C64, C65, C37, C39 and C45 are met -/

set_option autoImplicit false

namespace Blazesym.Dwarf
open Blazesym.Util Blazesym.Symbolize Blazesym.Spec.Dwarf

/-- The root entry. -/
def exRoot : Entry := ⟨.other, true, [⟨.lowPc, .addr 0x1000⟩, ⟨.highPc, .udata 0x40⟩, ⟨.language, .language 12⟩], none⟩

/-- The function `foo`, with the inlined functions of `exTree`. -/
def exFooEntry : Entry :=
  ⟨.subprogram, true, [⟨.name, .string exFoo⟩, ⟨.lowPc, .addr 0x1000⟩, ⟨.highPc, .udata 0x40⟩], none⟩

def exFileStream : Stream :=
  (11, .entry exRoot) :: (20, .entry exFooEntry) :: (exTree.flat ++ [(120, .null), (121, .null)])

def exFileRows : List Row :=
  [⟨0x1000, 1, 5, 3, false⟩, ⟨0x1008, 2, 6, 1, false⟩, ⟨0x1010, 1, 7, 3, false⟩, ⟨0x1040, 1, 0, 0, true⟩]

def exFileDies : DieUnit where
  version := 4
  entries := fun o => .ok (exFileStream.filter (fun x => decide (o.getD 0 ≤ x.1)))

def exFileProg : LineProgram :=
  { rows := exFileRows, fail := none, file0 := none,
    files := [⟨0, none, .ok (ascii "a.c")⟩, ⟨1, some (.ok (ascii "/usr/include")), .ok (ascii "b.h")⟩] }

def exFileMain : MainUnit where
  dies := exFileDies
  compDir := some (ascii "/src")
  line := some exFileProg
  dwo := .ok none

def exFileHeader : Header where
  inInfo := true
  offset := 0
  kind := .compile
  valid := fun n => decide (11 ≤ n)
  unit := .ok exFileMain

def exFile : Sections where
  aranges := []
  arangesFail := none
  headers := [exFileHeader]
  headersFail := none

theorem exFile_stream : exFileDies.entries none = .ok exFileStream := by rfl

theorem exFile_entries : EntriesOf exFileHeader exFileDies exFileStream :=
  ⟨exFileMain, rfl, .inr ⟨rfl, rfl⟩, exFile_stream⟩

theorem exFile_functions : functionsIn exFileStream = [(20, exFooEntry)] := by rfl

theorem exRoot_code : CodeOk exRoot.attrs where
  address := by
    intro a ha _ e he
    simp only [exRoot, List.mem_cons, List.not_mem_nil, or_false] at ha
    rcases ha with rfl | rfl | rfl <;> cases he
  list := by
    intro a ha hr
    simp only [exRoot, List.mem_cons, List.not_mem_nil, or_false] at ha
    rcases ha with rfl | rfl | rfl <;> cases hr
  items := by intro l hl; cases hl
  bound := by
    intro r hr _
    have := Option.some.inj hr
    subst this
    decide

theorem exFoo_code : CodeOk exFooEntry.attrs where
  address := by
    intro a ha _ e he
    simp only [exFooEntry, List.mem_cons, List.not_mem_nil, or_false] at ha
    rcases ha with rfl | rfl | rfl <;> cases he
  list := by
    intro a ha hr
    simp only [exFooEntry, List.mem_cons, List.not_mem_nil, or_false] at ha
    rcases ha with rfl | rfl | rfl <;> cases hr
  items := by intro l hl; cases hl
  bound := by
    intro r hr _
    have := Option.some.inj hr
    subst this
    decide

theorem exInl_ok (name lo size line : Nat) (c : Bool) (h : lo + size < 2 ^ 64) :
    CodeOk (exInl name lo size line c).attrs where
  address := by
    intro a ha _ e he
    simp only [exInl, List.mem_cons, List.not_mem_nil, or_false] at ha
    rcases ha with rfl | rfl | rfl | rfl | rfl <;> cases he
  list := by
    intro a ha hr
    simp only [exInl, List.mem_cons, List.not_mem_nil, or_false] at ha
    rcases ha with rfl | rfl | rfl | rfl | rfl <;> cases hr
  items := by intro l hl; cases hl
  bound := by
    intro r hr _
    have := Option.some.inj hr
    subst this
    exact h

theorem exFile_declares : Declares exFile exFileHeader ⟨0x1000, 0x1040⟩ :=
  ⟨rfl, rfl, .inr ⟨(by rintro r ⟨set, hset, _⟩; cases hset), exFileMain, exRoot, rfl, ⟨_, _, exFile_stream⟩,
    .inl (by decide)⟩⟩

theorem exFile_unitFor : UnitFor exFile 0x100a exFileHeader :=
  ⟨List.mem_singleton.mpr rfl, _, exFile_declares, by decide, by decide⟩

theorem exFile_ok : SectionsOk exFile where
  aranges := rfl
  headers := rfl
  units := by
    intro h hm _ _
    have := List.mem_singleton.mp hm
    subst this
    refine ⟨(by intro set hset; cases hset), ?_⟩
    intro _ main hmain
    have := Except.ok.inj hmain
    subst this
    exact ⟨_, _, _, exFile_stream, .inr ⟨_, rfl, rfl, exRoot_code⟩⟩

theorem exFile_sorted : HeadersSorted exFile := List.pairwise_singleton _ _

theorem exFile_nameOf (units : List Unit) (d : DieUnit) (o : Option Bytes)
    (h : HasName units d exFooEntry.attrs o) : o = some exFoo := by
  have hl : lastOf linkage? exFooEntry.attrs = none := rfl
  unfold HasName at h
  rw [hl] at h
  cases o with
  | none => exact absurd (.inl rfl : SoftName units d ⟨.name, .string exFoo⟩ exFoo) (h _ List.mem_cons_self exFoo)
  | some n =>
    obtain ⟨pre, a, post, h1, h2, h3⟩ := h
    cases pre with
    | nil =>
      simp only [exFooEntry, List.nil_append, List.cons.injEq] at h1
      rw [← h1.1] at h2
      rcases h2 with h2 | ⟨v, k, h2, _⟩
      · exact congrArg some (Option.some.inj h2).symm
      · cases h2
    | cons c pre =>
      simp only [exFooEntry, List.cons_append, List.cons.injEq] at h1
      exact absurd (.inl (by rw [← h1.1]; rfl) : SoftName units d c exFoo) (h3 c List.mem_cons_self exFoo)

theorem exFile_name (units : List Unit) (d : DieUnit) : HasName units d exFooEntry.attrs (some exFoo) :=
  ⟨[], _, _, rfl, .inl rfl, by simp⟩

theorem exInl_name (units : List Unit) (d : DieUnit) (name lo size line : Nat) (c : Bool) (n : Bytes)
    (h : HasName units d (exInl name lo size line c).attrs (some n)) : n = [UInt8.ofNat name] := by
  have hl : lastOf linkage? (exInl name lo size line c).attrs = none := rfl
  unfold HasName at h
  rw [hl] at h
  obtain ⟨pre, a, post, h1, h2, h3⟩ := h
  cases pre with
  | nil =>
    simp only [exInl, List.nil_append, List.cons.injEq] at h1
    rw [← h1.1] at h2
    rcases h2 with h2 | ⟨v, k, h2, _⟩
    · exact (Option.some.inj h2).symm
    · cases h2
  | cons b pre =>
    simp only [exInl, List.cons_append, List.cons.injEq] at h1
    exact absurd (.inl (by rw [← h1.1]; rfl) : SoftName units d b [UInt8.ofNat name]) (h3 b List.mem_cons_self _)

theorem exInl_origin (name lo size line : Nat) (c : Bool) : ∀ a ∈ (exInl name lo size line c).attrs, origin? a = none := by
  intro a ha
  simp only [exInl, List.mem_cons, List.not_mem_nil, or_false] at ha
  rcases ha with rfl | rfl | rfl | rfl | rfl <;> rfl

theorem exTree_ok (units : List Unit) (d : DieUnit) : exTree.Ok units d := by
  have h1 := exInl_ok 97 0x1000 0x20 7 true (by decide)
  have h2 := exInl_ok 98 0x1008 0x8 9 false (by decide)
  have h3 := exInl_ok 99 0x1020 0x10 11 false (by decide)
  have o : ∀ (name lo size line : Nat) (c : Bool), ∀ a ∈ (exInl name lo size line c).attrs, ∀ v,
      origin? a = some v → RefsOk units 16 d v := by
    intro name lo size line c a ha v hv
    rw [exInl_origin name lo size line c a ha] at hv
    cases hv
  exact ⟨rfl, ⟨rfl, ⟨rfl, trivial, trivial, fun _ => ⟨h2, o _ _ _ _ _⟩⟩, trivial, fun h => by cases h⟩,
    ⟨rfl, trivial, trivial, fun _ => ⟨h3, o _ _ _ _ _⟩⟩, fun _ => ⟨h1, o _ _ _ _ _⟩⟩

theorem exTree_chain_mem (addr : Nat) : ∀ e ∈ exTree.chain addr, ∃ name lo size line c,
    (name = 97 ∨ name = 98 ∨ name = 99) ∧ e = exInl name lo size line c := by
  have t1 : (exInl 97 0x1000 0x20 7 true).tag = .inlinedSubroutine := rfl
  have t2 : (exInl 98 0x1008 0x8 9 false).tag = .inlinedSubroutine := rfl
  have t3 : (exInl 99 0x1020 0x10 11 false).tag = .inlinedSubroutine := rfl
  intro e he
  simp only [exTree, Dies.chain, t1, t2, t3] at he
  have : e = exInl 97 0x1000 0x20 7 true ∨ e = exInl 98 0x1008 0x8 9 false ∨ e = exInl 99 0x1020 0x10 11 false := by
    revert he
    split <;> split <;> (try split) <;> simp <;> tauto
  rcases this with rfl | rfl | rfl
  · exact ⟨_, _, _, _, _, .inl rfl, rfl⟩
  · exact ⟨_, _, _, _, _, .inr (.inl rfl), rfl⟩
  · exact ⟨_, _, _, _, _, .inr (.inr rfl), rfl⟩

theorem exFile_functionAt : FunctionAt exFileDies 20 exTree :=
  ⟨20, 120, exFooEntry, [(121, .null)], by rfl, rfl, rfl,
    by simp [exTree, Dies.WellFormed, exInl], by intro h; cases h⟩

theorem exFile_streamOk (units : List Unit) : StreamOk units exFileDies exFileStream where
  raw := by
    intro x hx e
    simp only [exFileStream, exTree, Dies.flat, exInl, List.mem_cons, List.mem_append, List.not_mem_nil, or_false,
      if_true, if_false, Bool.false_eq_true, List.nil_append, List.append_nil] at hx
    rcases hx with rfl | rfl | hx
    · simp
    · simp
    · aesop
  entry := by
    intro off e he
    simp only [exFileStream, exTree, Dies.flat, exInl, exRoot, exFooEntry, List.mem_cons, List.mem_append, List.not_mem_nil, or_false,
      if_true, if_false, Bool.false_eq_true, List.nil_append, List.append_nil, Prod.mk.injEq, Raw.entry.injEq,
      reduceCtorEq, and_false] at he
    aesop
  code := by
    intro off e he ht
    have : e = exFooEntry := by
      simp only [exFileStream, exTree, Dies.flat, exInl, exRoot, exFooEntry, List.mem_cons, List.mem_append, List.not_mem_nil, or_false,
        if_true, if_false, Bool.false_eq_true, List.nil_append, List.append_nil, Prod.mk.injEq, Raw.entry.injEq,
        reduceCtorEq, and_false] at he
      aesop
    rw [this]
    exact exFoo_code
  name := by
    intro off e he ht a ha v hv
    have : e = exFooEntry := by
      simp only [exFileStream, exTree, Dies.flat, exInl, exRoot, exFooEntry, List.mem_cons, List.mem_append, List.not_mem_nil, or_false,
        if_true, if_false, Bool.false_eq_true, List.nil_append, List.append_nil, Prod.mk.injEq, Raw.entry.injEq,
        reduceCtorEq, and_false] at he
      aesop
    rw [this] at ha
    simp only [exFooEntry, List.mem_cons, List.not_mem_nil, or_false] at ha
    rcases ha with rfl | rfl | rfl <;> cases hv

theorem exFile_apart : FunctionsInOrder exFileStream := by
  intro x hx y hy r hr r' hr'
  rw [exFile_functions, List.mem_singleton] at hx hy
  subst hx
  subst hy
  have e1 : codeOf exFooEntry.attrs = [⟨0x1000, 0x1040⟩] := by rfl
  simp only [e1, List.mem_singleton] at hr hr'
  subst hr
  subst hr'
  exact .inl rfl

theorem exFile_orderly : Orderly exFileRows := by
  have hr := runs_to (rows := exFileRows) (l := [(0, [⟨0x1000, 1, 5, 3, false⟩, ⟨0x1008, 2, 6, 1, false⟩,
    ⟨0x1010, 1, 7, 3, false⟩], 0x1040)]) (by decide)
  constructor
  · intro pos seq stop h
    rw [hr] at h
    simp only [List.mem_cons, Prod.mk.injEq, List.not_mem_nil, or_false] at h
    obtain ⟨_, rfl, _⟩ := h
    simp
  · intro pos seq stop start h ⟨r, rest, h1, h2⟩
    rw [hr] at h
    simp only [List.mem_cons, Prod.mk.injEq, List.not_mem_nil, or_false] at h
    obtain ⟨_, rfl, rfl⟩ := h
    simp only [List.cons.injEq] at h1
    rw [← h2, ← h1.1]
    simp
  · intro p₁ q₁ e₁ s₁ p₂ q₂ e₂ s₂ h _ h' _ hne
    rw [hr] at h h'
    simp only [List.mem_cons, Prod.mk.injEq, List.not_mem_nil, or_false] at h h'
    exact absurd (h.1.trans h'.1.symm) hne

theorem exFile_linesOk : LinesOk exFileProg where
  fail := rfl
  files := by
    rintro f (h | h)
    · cases h
    · simp only [exFileProg, List.mem_cons, List.not_mem_nil, or_false] at h
      rcases h with rfl | rfl
      · exact ⟨⟨_, rfl⟩, fun h => absurd rfl h⟩
      · refine ⟨⟨_, rfl⟩, fun _ d hd => ?_⟩
        simp only [Option.some.injEq] at hd
        exact ⟨_, hd.symm⟩
  rows := by
    intro r hr _
    simp only [exFileProg, exFileRows, List.mem_cons, List.not_mem_nil, or_false] at hr
    rcases hr with rfl | rfl | rfl | rfl <;> simp [exFileProg]
  orderly := exFile_orderly

/-- The only unit of the file is in order. -/
theorem exFile_unitOk (units : List Unit) : UnitOk units exFileHeader where
  main := ⟨exFileMain, rfl, ⟨exRoot, ⟨_, _, exFile_stream⟩, rfl⟩, by
    intro p hp
    have := Option.some.inj hp
    subst this
    exact exFile_linesOk⟩
  entries := by
    refine ⟨_, _, exFile_entries, exFile_streamOk units, exFile_apart, ?_⟩
    intro x hx
    rw [exFile_functions, List.mem_singleton] at hx
    subst hx
    refine ⟨?_, ?_, exTree, exFile_functionAt, exTree_nested, exTree_ok _ _, ?_⟩
    · intro n hn
      have := Option.some.inj (exFile_nameOf _ _ _ hn)
      subst this
      decide +kernel
    · intro r hr
      have := Option.some.inj hr
      subst this
      decide
    · intro addr e he n hn
      obtain ⟨name, lo, size, line, c, h1, rfl⟩ := exTree_chain_mem addr e he
      have := exInl_name _ _ _ _ _ _ _ _ hn
      subst this
      rcases h1 with rfl | rfl | rfl <;> decide +kernel

theorem exFile_linesOrderly : LinesOrderly exFile := by
  intro h hm main p h1 h2
  rw [List.mem_singleton.mp hm] at h1
  have := Except.ok.inj h1
  subst this
  have := Option.some.inj h2
  subst this
  exact exFile_orderly

/-- A resolver for the file. -/
def exResolver (u : Units) : Resolver where
  units := u
  module := some (ascii "/bin/ls")
  elfFindSym := fun _ _ => .ok (.error .unknownAddr)
  elfFindAddr := fun _ _ => .ok []
  fileOffset := fun a _ => .ok (some (a - 0x1000))

/-- The file can be parsed; whatever is wanted, symbolization reports `foo`. -/
example (σ : Sorter) (opts : FindSymOpts) : ∃ u sym, parseUnits σ exFile = .ok u ∧
    (exResolver u).findSym σ 0x100a opts = .ok (.ok sym) ∧ sym.name = exFoo ∧ sym.addr = 0x1000 ∧
    sym.size = some 0x40 := by
  obtain ⟨u, hu⟩ := C36_accepted σ exFile exFile_ok
  obtain ⟨res, hres⟩ := C64_total σ exFile (exResolver u) hu exFile_sorted 0x100a (by decide) opts (by
    intro hd hun
    rw [List.mem_singleton.mp hun.1]
    exact exFile_unitOk _) ⟨_, rfl⟩
  have hap : AllInOrder exFile := by
    intro h hm d stream he
    rw [List.mem_singleton.mp hm] at he
    obtain ⟨_, rfl⟩ := entriesOf_unique he exFile_entries
    exact exFile_apart
  obtain ⟨sym, hd', d', x', name, h1, h2, ⟨st, h3, h4, _⟩, h5, h6, _, _, h8, _⟩ := C64_function_partial σ exFile (exResolver u) hu
    exFile_sorted hap 0x100a (by decide) opts exFileHeader exFileDies (20, exFooEntry) exFile_unitFor
    ⟨_, exFile_entries, by rw [exFile_functions]; simp, ⟨0x1000, 0x1040⟩, by decide, by decide, by decide⟩ res hres
  rw [List.mem_singleton.mp h2.1] at h3
  obtain ⟨rfl, rfl⟩ := entriesOf_unique h3 exFile_entries
  rw [exFile_functions, List.mem_singleton] at h4
  subst h4
  have := exFile_nameOf _ _ _ h5
  subst this
  obtain ⟨⟨r, k1, k2, k3⟩, _⟩ := h8 rfl
  have := Option.some.inj k1
  subst this
  exact ⟨u, sym, hu, by rw [hres, h1], h6, k2, k3⟩

/-- With inlined functions: `foo` has called `a`, which has called `b`. -/
example (σ : Sorter) : ∃ u sym, parseUnits σ exFile = .ok u ∧
    (exResolver u).findSym σ 0x100a .codeInfoAndInlined = .ok (.ok sym) ∧
    sym.inlined.map InlinedFn.name = [[97], [98]] := by
  obtain ⟨u, hu⟩ := C36_accepted σ exFile exFile_ok
  have hunit : ∀ hd, UnitFor exFile 0x100a hd → UnitOk u.units hd := by
    intro hd hun
    rw [List.mem_singleton.mp hun.1]
    exact exFile_unitOk _
  obtain ⟨res, hres⟩ := C64_total σ exFile (exResolver u) hu exFile_sorted 0x100a (by decide) .codeInfoAndInlined hunit ⟨_, rfl⟩
  have hap : AllInOrder exFile := by
    intro h hm d stream he
    rw [List.mem_singleton.mp hm] at he
    obtain ⟨_, rfl⟩ := entriesOf_unique he exFile_entries
    exact exFile_apart
  have hcov : FunctionFor exFileHeader 0x100a exFileDies (20, exFooEntry) :=
    ⟨_, exFile_entries, by rw [exFile_functions]; simp, ⟨0x1000, 0x1040⟩, by decide, by decide, by decide⟩
  obtain ⟨sym, _, _, _, _, h1, _⟩ := C64_function_partial σ exFile (exResolver u) hu
    exFile_sorted hap 0x100a (by decide) _ exFileHeader exFileDies (20, exFooEntry) exFile_unitFor hcov res hres
  subst h1
  obtain ⟨o, ho⟩ := C62_file_accepted σ exFile u hu exFile_sorted 0x100a (by decide) (by
    intro hd hun
    obtain ⟨d, stream, h1, h2, _⟩ := (hunit hd hun).entries
    exact ⟨d, stream, h1, h2⟩)
  obtain ⟨⟨f, unit⟩, rfl⟩ := (C64_found_iff σ exFile u hu exFile_sorted hap 0x100a (by decide) o ho).mpr
    ⟨_, _, _, exFile_unitFor, hcov⟩
  obtain ⟨k1, d, x, k2, ⟨st, k3, k4, _⟩, k5⟩ := C64_found σ exFile u hu exFile_sorted 0x100a (by decide) f unit ho
  have hhd := List.mem_singleton.mp k1.1
  rw [hhd] at k3
  obtain ⟨rfl, rfl⟩ := entriesOf_unique k3 exFile_entries
  rw [exFile_functions, List.mem_singleton] at k4
  subst k4
  obtain ⟨loc, hloc⟩ := C37_file_accepted σ exFile u hu 0x100a (by decide) (by
    intro hd hun
    obtain ⟨main, h1, _, h2⟩ := (hunit hd hun).main
    exact ⟨main, h1, h2⟩)
  have hord := exFile_linesOrderly
  have hsome : ∃ l, loc = some l := by
    cases loc with
    | some l => exact ⟨l, rfl⟩
    | none =>
      exfalso
      have hr := runs_to (rows := exFileRows) (l := [(0, [⟨0x1000, 1, 5, 3, false⟩, ⟨0x1008, 2, 6, 1, false⟩,
        ⟨0x1010, 1, 7, 3, false⟩], 0x1040)]) (by decide)
      exact (C37_file σ exFile u hu hord 0x100a (by decide) none hloc).2 rfl exFileHeader exFile_unitFor _
        ⟨exFileMain, exFileProg, ⟨0x1008, 2, 6, 1, false⟩, ascii "/usr/include", ascii "b.h", rfl, rfl,
          ⟨0, _, 0x1040, 0x1000, [⟨0x1000, 1, 5, 3, false⟩], [⟨0x1010, 1, 7, 3, false⟩],
            (hr _ _ _).mpr List.mem_cons_self, ⟨_, _, rfl, rfl⟩, by decide, by decide, rfl, by decide, by simp⟩,
          ⟨_, rfl, by simp [DirIs, resolved, show (ascii "/usr/include").head? = some 47 from by decide +kernel], rfl⟩, rfl⟩
  obtain ⟨l, rfl⟩ := hsome
  obtain ⟨hd', here, stack, sites, q1, q2, q3, q4, q5, _⟩ := C39_dwarf_partial σ exFile (exResolver u) hu exFile_sorted
    hord 0x100a (by decide) f unit ho exFileMain (by rw [hhd]; rfl) exFileDies k2 exTree
    (by rw [k5.1]; exact exFile_functionAt) exTree_nested sym hres l hloc
  refine ⟨u, sym, hu, hres, ?_⟩
  have hchain : exTree.chain 0x100a = [exInl 97 0x1000 0x20 7 true, exInl 98 0x1008 0x8 9 false] := by
    have h1 := exInl_code 97 0x1000 0x20 7 true (by omega)
    have h2 := exInl_code 98 0x1008 0x8 9 false (by omega)
    have t1 : (exInl 97 0x1000 0x20 7 true).tag = .inlinedSubroutine := rfl
    have t2 : (exInl 98 0x1008 0x8 9 false).tag = .inlinedSubroutine := rfl
    simp [exTree, Dies.chain, t1, t2, h1, h2]
  rw [hchain] at q3
  rw [q5]
  have nm : ∀ (name lo size line : Nat) (c : Bool), HasName (exResolver u).units.units exFileDies
      (exInl name lo size line c).attrs (some [UInt8.ofNat name]) := fun _ _ _ _ _ => ⟨[], _, _, rfl, .inl rfl, by simp⟩
  have hus := units_sorted hu exFile_sorted
  cases q3 with
  | cons i1 t =>
    cases t with
    | cons i2 t =>
      cases t
      have e1 := C63_unique hus i1.name (nm _ _ _ _ _)
      have e2 := C63_unique hus i2.name (nm _ _ _ _ _)
      simp only [List.map_cons, List.map_nil, e1, e2]
      rfl

/-- **C65** (all functions, negation): of two functions of a unit with the same name, only the first one
is reported. -/
theorem C65_all_wrong (σ : Sorter) : ∃ (r : Resolver) (u : Unit) (x y : Nat × Entry) (stream : Stream)
    (syms : List Elf.SymInfo), r.units.units = [u] ∧ EntriesOf u.header exUnit stream ∧ x ≠ y ∧
      functionsIn stream = [x, y] ∧
      HasName [u] exUnit x.2.attrs (some exFoo) ∧ HasName [u] exUnit y.2.attrs (some exFoo) ∧
      r.findAddr σ exFoo { fileOffset := false, symType := .function } = .ok syms ∧
      syms.map Elf.SymInfo.addr = [0x1000] := by
  refine ⟨exResolver { unitRanges := [], units := [⟨{ exFileHeader with
      unit := .ok { exFileMain with dies := exUnit } }, false, none⟩] }, _, _, _, exStream, _, rfl,
    ⟨_, rfl, .inr ⟨rfl, rfl⟩, by rfl⟩, ?_, exStream_functions, ?_, ?_, rfl, rfl⟩
  · intro h; simp at h
  · exact ⟨[], _, _, rfl, .inl rfl, by simp⟩
  · exact ⟨[], _, _, rfl, .inr ⟨_, 1, rfl, by omega,
      .here (.inl ⟨20, rfl, rfl, ⟨_, _, rfl⟩⟩) (.inr ⟨rfl, rfl, rfl⟩)⟩, by simp⟩

/-- Looking up `foo` succeeds, and so does the iteration. -/
example (σ : Sorter) : ∃ u syms, parseUnits σ exFile = .ok u ∧
    (exResolver u).findAddr σ exFoo { fileOffset := true, symType := .function } = .ok syms := by
  obtain ⟨u, hu⟩ := C36_accepted σ exFile exFile_ok
  have hall : ∀ x ∈ u.units, x.header = exFileHeader := by
    intro x hx
    exact List.mem_singleton.mp ((C36_kept σ exFile u hu).1.subset (List.mem_map.mpr ⟨x, hx, rfl⟩))
  obtain ⟨syms, h⟩ := C65_accepted σ (exResolver u) (units_sorted hu exFile_sorted) exFoo (by decide +kernel)
    { fileOffset := true, symType := .function } (by decide)
    (fun x hx => by rw [hall x hx]; exact ⟨_, _, exFile_entries, exFile_streamOk _⟩) (fun _ _ _ => ⟨_, rfl⟩) ⟨_, rfl⟩
  exact ⟨u, syms, hu, h⟩

example (σ : Sorter) : ∃ (u : Units) (xs : List (DieUnit × (Nat × Entry))) (infos : List Elf.SymInfo),
    parseUnits σ exFile = .ok u ∧ AllFunctions u.units xs ∧
    NamedInfos u.units (exResolver u).fileOffset true xs infos := by
  obtain ⟨u, hu⟩ := C36_accepted σ exFile exFile_ok
  have hall : ∀ x ∈ u.units, x.header = exFileHeader := by
    intro x hx
    exact List.mem_singleton.mp ((C36_kept σ exFile u hu).1.subset (List.mem_map.mpr ⟨x, hx, rfl⟩))
  obtain ⟨xs, infos, h1, h2, _⟩ := C45_dwarf (S := Nat) σ (exResolver u) (units_sorted hu exFile_sorted)
    { fileOffset := true, symType := .function } (by decide)
    (fun x hx => by
      rw [hall x hx]
      refine ⟨_, _, exFile_entries, exFile_streamOk _, ?_⟩
      intro y hy n hn
      rw [exFile_functions, List.mem_singleton] at hy
      subst hy
      have := Option.some.inj (exFile_nameOf _ _ _ hn)
      subst this
      decide +kernel) (fun _ _ _ => ⟨_, rfl⟩)
  exact ⟨u, xs, infos, hu, h1, h2⟩

end Blazesym.Dwarf
