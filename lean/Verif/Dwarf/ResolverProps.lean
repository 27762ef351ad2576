import Verif.Dwarf.ResolverLemmas
import Verif.Dwarf.LanguageLemmas

/-! # C64 and C39: symbolization with DWARF data -/

set_option autoImplicit false

namespace Blazesym.Dwarf
open Blazesym.Util Blazesym.Symbolize Blazesym.Spec.Dwarf

theorem units_sorted {σ : Sorter} {s : Sections} {u : Units} (hu : parseUnits σ s = .ok u) (hs : HeadersSorted s) :
    UnitsSorted u.units := by
  have h := (C36_kept σ s u hu).1
  have h2 := hs.sublist h
  rw [List.pairwise_map] at h2
  exact h2

theorem unitRef_iff (u : Unit) (d : DieUnit) : u.unitRef = .ok d ↔
    ∃ main, u.header.unit = .ok main ∧ (main.dwo = .ok (some d) ∨ (main.dwo = .ok none ∧ d = main.dies)) := by
  unfold Unit.unitRef
  cases h : u.header.unit with
  | error e => simp [bind, Except.bind]
  | ok main =>
    simp only [bind, Except.bind, Except.ok.injEq, exists_eq_left']
    cases h2 : main.dwo with
    | error e => simp
    | ok o =>
      cases o with
      | none => simp [pure, Except.pure, eq_comm]
      | some d' => simp [pure, Except.pure]

/-- **C64** (which function): the function found for an address is a function of a unit that declares the
address, and has the address in its code. -/
theorem C64_found (σ : Sorter) (s : Sections) (u : Units) (hu : parseUnits σ s = .ok u) (hs : HeadersSorted s)
    (addr : Nat) (ha : addr + 1 < 2 ^ 64) (f : Function) (unit : Unit)
    (h : u.findFunction σ addr = .ok (some (f, unit))) :
    UnitFor s addr unit.header ∧ ∃ d x, unit.unitRef = .ok d ∧ FunctionFor unit.header addr d x ∧
      Describes u.units d x f := by
  obtain ⟨found, _, h2, _⟩ := C62_file σ s u hu addr ha _ h
  obtain ⟨_, h4, h5, h6⟩ := h2 f unit rfl
  obtain ⟨d, stream, x, k1, k2, k3, k4, k5⟩ := C62_found σ u.units (units_sorted hu hs) unit addr f h4
  obtain ⟨main, m1, m2⟩ := (unitRef_iff unit d).mp k1
  exact ⟨⟨h5, h6⟩, d, x, k1, ⟨stream, ⟨main, m1, m2, k2⟩, k3, k4⟩, k5⟩

/-- **C64** (whether a function is found): if functions are not nested, a function is found
exactly for the addresses in the code of a function of a unit that declares the address. -/
theorem C64_found_iff (σ : Sorter) (s : Sections) (u : Units) (hu : parseUnits σ s = .ok u) (hs : HeadersSorted s)
    (hap : AllInOrder s) (addr : Nat) (ha : addr + 1 < 2 ^ 64) (o : Option (Function × Unit))
    (h : u.findFunction σ addr = .ok o) :
    (∃ r, o = some r) ↔ ∃ hd d x, UnitFor s addr hd ∧ FunctionFor hd addr d x := by
  constructor
  · rintro ⟨⟨f, unit⟩, rfl⟩
    obtain ⟨h1, d, x, _, h2, _⟩ := C64_found σ s u hu hs addr ha f unit h
    exact ⟨_, d, x, h1, h2⟩
  · rintro ⟨hd, d, x, h1, stream, hst, h3, h4⟩
    cases o with
    | some r => exact ⟨r, rfl⟩
    | none =>
      exfalso
      obtain ⟨found, k1, _, k2⟩ := C62_file σ s u hu addr ha _ h
      obtain ⟨found', k3, k4⟩ := C36_units_partial σ s u hu addr ha
      rw [k1] at k3
      have := Except.ok.inj k3
      subst this
      obtain ⟨unit, hm, rfl⟩ := (k4 hd).mpr h1
      have hap' := hap _ h1.1 d stream hst
      obtain ⟨main, m1, m2, m3⟩ := hst
      obtain ⟨f, hf⟩ := C62_complete σ u.units (units_sorted hu hs) unit d stream
        ((unitRef_iff unit d).mpr ⟨main, m1, m2⟩) m3 hap' x h3 addr h4 _ (k2 rfl unit hm)
      cases hf

/-! ### Source locations -/

theorem unitLocation_iff {σ : Sorter} {unit : Unit} {addr : Nat} {o : Option Location}
    (ho : ∀ main p, unit.header.unit = .ok main → main.line = some p → Orderly p.rows)
    (h : unit.findLocation σ addr = .ok o) :
    (∀ loc, o = some loc → LocationFor unit.header addr loc.codeInfo) ∧
    (o = none → ∀ main p, unit.header.unit = .ok main → main.line = some p → ∀ row, ¬ RowFor p.rows addr row) := by
  unfold Unit.findLocation at h
  obtain ⟨ls, h1, h⟩ := bind_ok h
  unfold Unit.lines at h1
  obtain ⟨main, hm, h1⟩ := bind_ok h1
  cases hl : main.line with
  | none =>
    rw [hl] at h1
    have := Except.ok.inj h1
    subst this
    have := Except.ok.inj h
    subst this
    refine ⟨by simp, ?_⟩
    intro _ main' p h2 h3
    rw [hm] at h2
    have := Except.ok.inj h2
    subst this
    rw [hl] at h3; cases h3
  | some p =>
    rw [hl] at h1
    obtain ⟨lines, h2, h1⟩ := bind_ok h1
    have := Except.ok.inj h1
    subst this
    simp only at h
    rcases findLocation_eq h2 (ho main p hm hl) addr with ⟨row, k1, k2⟩ | ⟨k1, k2⟩
    · rw [k2] at h
      unfold Lines.rowLocation at h
      cases hg : lines.files[(keptRow row).fileIndex]? with
      | none => rw [hg] at h; simp [Except.map] at h
      | some df =>
        obtain ⟨dir, file⟩ := df
        rw [hg] at h
        simp only [Except.map, Except.ok.injEq] at h
        subst h
        refine ⟨?_, by simp⟩
        intro loc hloc
        have := Option.some.inj hloc
        subst this
        obtain ⟨_, _, _, _, hfiles⟩ := parseLines_ok h2
        refine ⟨main, p, row, dir, file, hm, hl, k1, (hfiles _ _ _).mp hg, ?_⟩
        rw [codeInfo_eq]
        have e1 : (keptRow row).line = row.line % 2 ^ 32 := rfl
        have e2 : (keptRow row).column = row.column % 2 ^ 32 := rfl
        rw [e1, e2]
        by_cases h0 : row.line % 2 ^ 32 = 0 <;> simp [h0]
    · rw [k2] at h
      have := Except.ok.inj h
      subst this
      refine ⟨by simp, ?_⟩
      intro _ main' p' h3 h4 row
      rw [hm] at h3
      have := Except.ok.inj h3
      subst this
      rw [hl] at h4
      have := Option.some.inj h4
      subst this
      exact k1 row

/-- **C37** (in a file): the location of an address comes from the line program of a unit that declares
the address; there is none exactly if no such line program has a row for the address. -/
theorem C37_file (σ : Sorter) (s : Sections) (u : Units) (hu : parseUnits σ s = .ok u) (ho : LinesOrderly s)
    (addr : Nat) (ha : addr + 1 < 2 ^ 64) (o : Option Location) (h : u.findLocation σ addr = .ok o) :
    (∀ loc, o = some loc → ∃ hd, UnitFor s addr hd ∧ LocationFor hd addr loc.codeInfo) ∧
    (o = none → ∀ hd, UnitFor s addr hd → ∀ ci, ¬ LocationFor hd addr ci) := by
  unfold Units.findLocation at h
  obtain ⟨found, h1, h⟩ := bind_ok h
  obtain ⟨o', h2, h⟩ := bind_ok h
  have := Except.ok.inj h
  subst this
  obtain ⟨found', k1, k2⟩ := C36_units_partial σ s u hu addr ha
  rw [h1] at k1
  have := Except.ok.inj k1
  subst this
  constructor
  · intro loc hloc
    rcases firstSome_ok _ _ _ h2 with ⟨e, _⟩ | ⟨b, x, pre, post, e1, e2, e3, _⟩
    · rw [e] at hloc; cases hloc
    · rw [e1] at hloc
      have := Option.some.inj hloc
      simp only at this
      subst this
      have hx := (k2 x.header).mp ⟨x, by rw [e2]; simp, rfl⟩
      exact ⟨x.header, hx, (unitLocation_iff (ho _ hx.1) e3).1 _ rfl⟩
  · intro hnone hd hun ci ⟨main, p, row, dir, file, m1, m2, m3, _⟩
    rcases firstSome_ok _ _ _ h2 with ⟨_, e⟩ | ⟨b, x, pre, post, e1, _⟩
    · obtain ⟨x, hx, rfl⟩ := (k2 hd).mpr hun
      exact (unitLocation_iff (ho _ hun.1) (e x hx)).2 rfl main p m1 m2 row m3
    · rw [e1] at hnone; cases hnone

/-- **C64** (no source location wanted): none is reported. -/
theorem C64_basic (σ : Sorter) (s : Sections) (r : Resolver) (hu : parseUnits σ s = .ok r.units)
    (hs : HeadersSorted s) (hap : AllInOrder s) (addr : Nat) (ha : addr + 1 < 2 ^ 64)
    (hd : Header) (d : DieUnit) (x : Nat × Entry) (hun : UnitFor s addr hd) (hx : FunctionFor hd addr d x)
    (sym : ResolvedSym) (h : r.findSym σ addr .basic = .ok (.ok sym)) : sym.codeInfo = none ∧ sym.inlined = [] := by
  cases ho : r.units.findFunction σ addr with
  | error e =>
    unfold Resolver.findSym at h
    rw [ho] at h
    simp [bind, Except.bind] at h
  | ok o =>
    obtain ⟨⟨f, unit⟩, rfl⟩ := (C64_found_iff σ s r.units hu hs hap addr ha o ho).mpr ⟨hd, d, x, hun, hx⟩
    obtain ⟨sym', size, lang, q1, q2, ql, q3, q4⟩ := findSym_function ho h
    have := Except.ok.inj q1
    subst this
    simp only [Units.fillCodeInfo, FindSymOpts.wantsCodeInfo, if_true, Except.ok.injEq] at q4
    rw [← q4]
    exact ⟨rfl, rfl⟩

/-- **C64** (source location without inlined functions): the symbol has the location of the address
according to the line program of a unit that declares the address, or none if there is none; inlined
functions are not reported. -/
theorem C64_code_info (σ : Sorter) (s : Sections) (r : Resolver) (hu : parseUnits σ s = .ok r.units)
    (ho : LinesOrderly s) (addr : Nat) (ha : addr + 1 < 2 ^ 64)
    (f : Function) (unit : Unit) (hf : r.units.findFunction σ addr = .ok (some (f, unit)))
    (sym : ResolvedSym) (h : r.findSym σ addr .codeInfo = .ok (.ok sym)) :
    sym.inlined = [] ∧
    (∀ ci, sym.codeInfo = some ci → ∃ hd, UnitFor s addr hd ∧ LocationFor hd addr ci) ∧
    (sym.codeInfo = none → ∀ hd, UnitFor s addr hd → ∀ ci, ¬ LocationFor hd addr ci) := by
  obtain ⟨sym', size, lang, q1, q2, ql, q3, q4⟩ := findSym_function hf h
  have := Except.ok.inj q1
  subst this
  unfold Units.fillCodeInfo at q4
  simp only [FindSymOpts.wantsCodeInfo, FindSymOpts.wantsInlined, Bool.true_eq_false, if_false,
    Bool.false_eq_true] at q4
  obtain ⟨o, h1, q4⟩ := bind_ok q4
  obtain ⟨k1, k2⟩ := C37_file σ s r.units hu ho addr ha o h1
  cases o with
  | none =>
    have := Except.ok.inj q4
    subst this
    exact ⟨rfl, by simp, fun _ => k2 rfl⟩
  | some loc =>
    have := Except.ok.inj q4
    subst this
    refine ⟨rfl, ?_, by simp⟩
    intro ci hci
    have := Option.some.inj hci
    subst this
    exact k1 loc rfl

/-- **C39** (DWARF): with inlined functions, let `chain` be the inlined functions the address is in, from
the outermost to the innermost, as described by the tree of entries of the function found.  The inlined
functions reported are these, with their names; if the place of the first call is known, the function
itself is reported at it, each inlined function at the place of the call of the next one, and the
innermost one at the location of the address. -/
theorem C39_dwarf_partial (σ : Sorter) (s : Sections) (r : Resolver) (hu : parseUnits σ s = .ok r.units)
    (hs : HeadersSorted s) (ho : LinesOrderly s) (addr : Nat) (ha : addr + 1 < 2 ^ 64)
    (f : Function) (unit : Unit) (hf : r.units.findFunction σ addr = .ok (some (f, unit)))
    (main : MainUnit) (hm : unit.header.unit = .ok main) (d : DieUnit) (hd : unit.unitRef = .ok d)
    (children : Dies) (hc : FunctionAt d f.offset children) (hn : children.Nested)
    (sym : ResolvedSym) (h : r.findSym σ addr .codeInfoAndInlined = .ok (.ok sym))
    (loc : Location) (hloc : r.units.findLocation σ addr = .ok (some loc)) :
    ∃ hd' here stack sites, UnitFor s addr hd' ∧ LocationFor hd' addr here ∧
      List.Forall₂ (InlinedIs r.units.units d) (children.chain addr) stack ∧
      List.Forall₂ (CallSite main) stack sites ∧
      sym.inlined.map InlinedFn.name = stack.map (fun i => i.name.getD []) ∧
      (∀ first rest, sites = some first :: rest →
        sym.codeInfo = some first ∧ sym.inlined.map InlinedFn.codeInfo = rest ++ [some here]) ∧
      (sites = [] → sym.codeInfo = some here ∧ sym.inlined = []) := by
  obtain ⟨sym', size, lang, q1, q2, ql, q3, q4⟩ := findSym_function hf h
  have := Except.ok.inj q1
  subst this
  unfold Units.fillCodeInfo at q4
  simp only [FindSymOpts.wantsCodeInfo, FindSymOpts.wantsInlined, Bool.true_eq_false, if_false, if_true] at q4
  obtain ⟨o, h1, q4⟩ := bind_ok q4
  rw [hloc] at h1
  have := Except.ok.inj h1
  subst this
  simp only at q4
  obtain ⟨stack, h2, q4⟩ := bind_ok q4
  obtain ⟨⟨d', out⟩, h3, q4⟩ := bind_ok q4
  have := Except.ok.inj q4
  subst this
  unfold Units.findInlined at h2
  rw [hd] at h2
  obtain ⟨_, e1, h2⟩ := bind_ok h2
  have := Except.ok.inj e1
  subst this
  obtain ⟨fs, h4, h5⟩ := bind_ok h2
  obtain ⟨found, k1, k2⟩ := C38_chain σ r.units.units (units_sorted hu hs) d f.offset children hc hn fs h4 addr
  rw [k1] at h5
  have := Except.ok.inj h5
  subst this
  obtain ⟨sites, s1, s2, s3⟩ := inlineLoop_ok σ unit main hm found _ _ _ h3
  obtain ⟨hd', u1, u2⟩ := (C37_file σ s r.units hu ho addr ha _ hloc).1 loc rfl
  refine ⟨hd', loc.codeInfo, found, sites, u1, u2, k2, s1, s2, ?_, ?_⟩
  · intro first rest hsites
    rw [hsites] at s3
    simp only [attributed, Prod.mk.injEq] at s3
    exact ⟨by rw [s3.1], s3.2⟩
  · intro hsites
    rw [hsites] at s3
    simp only [attributed, Prod.mk.injEq, List.map_eq_nil_iff] at s3
    exact ⟨by rw [s3.1], s3.2⟩

/-- **C39** (DWARF, all places known): the places of the calls, followed by the location of the address,
are the locations of the function itself and of the inlined functions. -/
theorem C39_dwarf_known (σ : Sorter) (unit : Unit) (main : MainUnit) (hm : unit.header.unit = .ok main)
    (stack : List Inlined) (here direct : CodeInfo) (out : List InlinedFn)
    (h : inlineLoop σ unit stack here [] = .ok (direct, out)) (known : List CodeInfo)
    (hk : ∀ sites, List.Forall₂ (CallSite main) stack sites → sites = known.map some) :
    some direct :: out.map InlinedFn.codeInfo = (known ++ [here]).map some := by
  obtain ⟨sites, s1, _, s3⟩ := inlineLoop_ok σ unit main hm stack here direct out h
  have := hk sites s1
  subst this
  cases known with
  | nil => simp only [List.map_nil, attributed, Prod.mk.injEq] at s3; simp [s3.1, s3.2]
  | cons c t => simp only [List.map_cons, attributed, Prod.mk.injEq] at s3; simp [s3.1, s3.2]

/-- **C39** (DWARF, negation): if the place of the first call is not known, the function itself is
reported at the location of the address, although the address is in inlined functions, and the
innermost inlined function has no location. -/
theorem C39_dwarf_wrong (σ : Sorter) (unit : Unit) (main : MainUnit) (hm : unit.header.unit = .ok main)
    (fn : Inlined) (rest : List Inlined) (hfn : fn.callFile = none) (here direct : CodeInfo) (out : List InlinedFn)
    (h : inlineLoop σ unit (fn :: rest) here [] = .ok (direct, out)) :
    direct = here ∧ (out.map InlinedFn.codeInfo).getLast? = some none := by
  obtain ⟨sites, s1, _, s3⟩ := inlineLoop_ok σ unit main hm _ here direct out h
  cases s1 with
  | cons h1 h2 =>
    rename_i site sites
    cases site with
    | some ci =>
      obtain ⟨_, _, _, _, _, h3, _⟩ := h1
      rw [hfn] at h3; cases h3
    | none =>
      simp only [attributed, Prod.mk.injEq] at s3
      exact ⟨s3.1, by rw [s3.2]; simp⟩

/-! ### Symbols -/

/-- What `fill_code_info` adds, for a function. -/
theorem fillCodeInfo_source {σ : Sorter} {s : Sections} {u : Units} (hu : parseUnits σ s = .ok u)
    (hs : HeadersSorted s) (ho : LinesOrderly s) {addr : Nat} (ha : addr + 1 < 2 ^ 64) {opts : FindSymOpts}
    {f : Function} {unit : Unit} {d : DieUnit} (hd : unit.unitRef = .ok d) {sym sym' : ResolvedSym}
    (h0 : sym.codeInfo = none) (h0' : sym.inlined = [])
    (h : u.fillCodeInfo σ sym addr opts (some (f, unit)) = .ok sym') :
    SourceOf u.units s unit.header d f.offset addr opts sym'.codeInfo sym'.inlined := by
  unfold Units.fillCodeInfo at h
  cases opts with
  | basic =>
    have := Except.ok.inj h
    subst this
    rw [h0, h0']
    exact .basic
  | codeInfo =>
    simp only [FindSymOpts.wantsCodeInfo, FindSymOpts.wantsInlined, Bool.true_eq_false, if_false,
      Bool.false_eq_true] at h
    obtain ⟨o, h1, h⟩ := bind_ok h
    obtain ⟨k1, k2⟩ := C37_file σ s u hu ho addr ha o h1
    cases o with
    | none =>
      have := Except.ok.inj h
      subst this
      rw [h0, h0']
      exact .line none (k2 rfl)
    | some loc =>
      have := Except.ok.inj h
      subst this
      exact .line (some loc.codeInfo) (k1 loc rfl)
  | codeInfoAndInlined =>
    simp only [FindSymOpts.wantsCodeInfo, FindSymOpts.wantsInlined, Bool.true_eq_false, if_false, if_true] at h
    obtain ⟨o, h1, h⟩ := bind_ok h
    obtain ⟨k1, k2⟩ := C37_file σ s u hu ho addr ha o h1
    cases o with
    | none =>
      have := Except.ok.inj h
      subst this
      rw [h0, h0']
      exact .nowhere (k2 rfl)
    | some loc =>
      simp only at h
      obtain ⟨stack, h2, h⟩ := bind_ok h
      obtain ⟨⟨d', out⟩, h3, h⟩ := bind_ok h
      have := Except.ok.inj h
      subst this
      obtain ⟨main, hm, _⟩ := (unitRef_iff unit d).mp hd
      refine .inlined loc.codeInfo d' main out (k1 loc rfl) hm ?_
      intro children hc hn
      unfold Units.findInlined at h2
      rw [hd] at h2
      obtain ⟨_, e1, h2⟩ := bind_ok h2
      have := Except.ok.inj e1
      subst this
      obtain ⟨fs, h4, h5⟩ := bind_ok h2
      obtain ⟨found, q1, q2⟩ := C38_chain σ u.units (units_sorted hu hs) d f.offset children hc hn fs h4 addr
      rw [q1] at h5
      have := Except.ok.inj h5
      subst this
      obtain ⟨sites, s1, s2, s3⟩ := inlineLoop_ok σ unit main hm found _ _ _ h3
      refine ⟨found, sites, q2, s1, s2, ?_⟩
      rw [show d' = (attributed loc.codeInfo sites).1 by rw [← s3],
        show out.map InlinedFn.codeInfo = (attributed loc.codeInfo sites).2 by rw [← s3]]
      cases sites with
      | nil => exact .direct
      | cons c rest =>
        cases c with
        | some c => exact .known c rest
        | none => exact .lost rest

/-- What `fill_code_info` adds, for a symbol. -/
theorem fillCodeInfo_line {σ : Sorter} {s : Sections} {u : Units} (hu : parseUnits σ s = .ok u)
    (ho : LinesOrderly s) {addr : Nat} (ha : addr + 1 < 2 ^ 64) {opts : FindSymOpts} {sym sym' : ResolvedSym}
    (h0 : sym.codeInfo = none) (h0' : sym.inlined = [])
    (h : u.fillCodeInfo σ sym addr opts none = .ok sym') :
    LineWanted s addr opts sym'.codeInfo ∧ sym'.inlined = [] := by
  unfold Units.fillCodeInfo at h
  split at h
  · rename_i hw
    have := Except.ok.inj h
    subst this
    cases opts <;> simp only [FindSymOpts.wantsCodeInfo, Bool.true_eq_false] at hw
    exact ⟨h0, h0'⟩
  · rename_i hw
    obtain ⟨o, h1, h⟩ := bind_ok h
    obtain ⟨k1, k2⟩ := C37_file σ s u hu ho addr ha o h1
    have hline : ∀ loc, LineAt s addr loc → LineWanted s addr opts loc := by
      intro loc hl
      cases opts with
      | basic => exact absurd rfl hw
      | codeInfo => exact hl
      | codeInfoAndInlined => exact hl
    cases o with
    | none =>
      have := Except.ok.inj h
      subst this
      exact ⟨hline _ (by rw [h0]; exact k2 rfl), h0'⟩
    | some loc =>
      simp only at h
      split at h
      all_goals
        have := Except.ok.inj h
        subst this
        exact ⟨hline _ (k1 loc rfl), rfl⟩

/-- **C64** (symbols of functions): if functions are not nested and the address is in the code
of a function of a unit that declares the address, the symbol reported is such a function: it has the
name of a function with the address in its code, is written in the language of the unit, and, if the
function is described by its lowest address and its end or length, has its extent.  If line programs are
orderly, the source location reported is the one that they have for the address, and the inlined functions
are those of the function that have the address in their code, both as far as asked for. -/
theorem C64_function_partial (σ : Sorter) (s : Sections) (r : Resolver) (hu : parseUnits σ s = .ok r.units)
    (hs : HeadersSorted s) (hap : AllInOrder s) (addr : Nat) (ha : addr + 1 < 2 ^ 64) (opts : FindSymOpts)
    (hd : Header) (d : DieUnit) (x : Nat × Entry) (hun : UnitFor s addr hd) (hx : FunctionFor hd addr d x)
    (res : Except Reason ResolvedSym) (h : r.findSym σ addr opts = .ok res) :
    ∃ sym hd' d' x' name, res = .ok sym ∧ UnitFor s addr hd' ∧ FunctionFor hd' addr d' x' ∧
      HasName r.units.units d' x'.2.attrs name ∧ sym.name = name.getD [] ∧ sym.module = r.module ∧
      WrittenIn hd' sym.lang ∧
      (rangesOf x'.2.attrs = none → ExtentOf x'.2 sym ∧
        sym.addr ≤ addr ∧ ∃ n, sym.size = some n ∧ addr < sym.addr + n) ∧
      (LinesOrderly s → SourceOf r.units.units s hd' d' x'.1 addr opts sym.codeInfo sym.inlined) := by
  cases ho : r.units.findFunction σ addr with
  | error e =>
    unfold Resolver.findSym at h
    rw [ho] at h
    simp [bind, Except.bind] at h
  | ok o =>
    obtain ⟨⟨f, unit⟩, rfl⟩ := (C64_found_iff σ s r.units hu hs hap addr ha o ho).mpr ⟨hd, d, x, hun, hx⟩
    obtain ⟨k1, d', x', kd, k3, k4, k5, k6⟩ := C64_found σ s r.units hu hs addr ha f unit ho
    obtain ⟨sym, size, lang, q1, q2, ql, q3, q4⟩ := findSym_function ho h
    obtain ⟨e1, e2, e3, e4, e5⟩ := fillCodeInfo_keeps q4
    refine ⟨sym, unit.header, d', x', f.name, q1, k1, k3, k5, e1, e2,
      e5 ▸ unit_written hu (found_mem hu ha ho) ql, ?_,
      fun hl => k4 ▸ fillCodeInfo_source hu hs hl ha kd rfl rfl q4⟩
    intro hr
    obtain ⟨stream, _, _, rg, hrg, c1, c2⟩ := k3
    unfold codeOf at hrg
    rw [hr] at hrg
    simp only at hrg
    rw [List.mem_filter, Option.mem_toList] at hrg
    have hspan := hrg.1
    rw [hspan] at k6
    rw [k6] at q2 e3
    have hle : rg.start ≤ rg.stop := by omega
    have hsub : subU rg.stop rg.start = .ok (rg.stop - rg.start) := if_pos hle
    simp only [rangeSize, hsub, Except.map, Except.ok.injEq] at q2
    refine ⟨⟨rg, hspan, e3, by rw [e4, ← q2]⟩, ?_, rg.stop - rg.start, by rw [e4, ← q2], ?_⟩
    · rw [e3]; exact c1
    · rw [e3]; simp only [Option.map_some, Option.getD_some]; omega

/-- **C64** (symbols of the ELF file): if no function of a unit that declares the address has it in its
code, the symbol is that of the ELF file, apart from the source location, which is the one of the line
programs, if they are orderly and it is asked for. -/
theorem C64_fallback (σ : Sorter) (s : Sections) (r : Resolver) (hu : parseUnits σ s = .ok r.units)
    (hs : HeadersSorted s) (addr : Nat) (ha : addr + 1 < 2 ^ 64) (opts : FindSymOpts)
    (hno : ∀ hd d x, UnitFor s addr hd → ¬ FunctionFor hd addr d x)
    (res : Except Reason ResolvedSym) (h : r.findSym σ addr opts = .ok res) :
    ∃ elf, r.elfFindSym addr opts = .ok elf ∧
      match elf with
      | .error reason => res = .error reason
      | .ok sym => ∃ sym', res = .ok sym' ∧ sym'.name = sym.name ∧ sym'.module = sym.module ∧
          sym'.addr = sym.addr ∧ sym'.size = sym.size ∧ sym'.lang = sym.lang ∧
          (LinesOrderly s → sym.codeInfo = none → sym.inlined = [] →
            LineWanted s addr opts sym'.codeInfo ∧ sym'.inlined = []) := by
  unfold Resolver.findSym at h
  obtain ⟨o, h1, h⟩ := bind_ok h
  cases o with
  | some fu =>
    obtain ⟨k1, d, x, _, k2, _⟩ := C64_found σ s r.units hu hs addr ha fu.1 fu.2 h1
    exact absurd k2 (hno _ d x k1)
  | none =>
    obtain ⟨elf, h2, h⟩ := bind_ok h
    refine ⟨elf, h2, ?_⟩
    cases elf with
    | error reason => exact (Except.ok.inj h).symm
    | ok sym =>
      obtain ⟨sym', h3, h⟩ := bind_ok h
      obtain ⟨e1, e2, e3, e4, e5⟩ := fillCodeInfo_keeps h3
      exact ⟨sym', (Except.ok.inj h).symm, e1, e2, e3, e4, e5, fun ho h0 h0' => fillCodeInfo_line hu ho ha h0 h0' h3⟩

/-! ### Acceptance and panics -/

theorem inlineLoop_isOk (σ : Sorter) (unit : Unit) (lines : Option Lines) (hl : unit.lines σ = .ok lines) :
    ∀ (stack : List Inlined) (direct : CodeInfo) (inlined : List InlinedFn),
    (∀ fn ∈ stack, ∀ n, fn.name = some n → isUtf8 n = true) →
    ∃ res, inlineLoop σ unit stack direct inlined = .ok res := by
  intro stack
  induction stack with
  | nil => intro direct inlined _; exact ⟨_, rfl⟩
  | cons fn rest ih =>
    intro direct inlined hutf
    have h1 : nameOrEmpty fn.name = .ok (fn.name.getD []) :=
      nameOrEmpty_ok.mpr ⟨rfl, hutf fn List.mem_cons_self⟩
    have h2 : ∃ loc, unit.callLocation σ fn = .ok loc := by
      unfold Unit.callLocation
      cases fn.callFile with
      | none => exact ⟨_, rfl⟩
      | some i =>
        simp only [hl, bind, Except.bind]
        cases lines with
        | none => exact ⟨_, rfl⟩
        | some ls =>
          simp only
          cases ls.files[i]? <;> exact ⟨_, rfl⟩
    obtain ⟨loc, h2⟩ := h2
    rw [inlineLoop]
    unfold Unit.inlinedItem
    simp only [h1, h2, bind, Except.bind, pure, Except.pure]
    exact ih _ _ (fun g hg => hutf g (List.mem_cons_of_mem _ hg))

/-- **C64** (acceptance): a symbol is reported if a function is found, its name and those of the inlined
functions are text, its end is not before its beginning, and the data for what is wanted can be decoded. -/
theorem C64_accepted (σ : Sorter) (r : Resolver) (addr : Nat) (opts : FindSymOpts) (f : Function) (unit : Unit)
    (hf : r.units.findFunction σ addr = .ok (some (f, unit)))
    (hname : ∀ n, f.name = some n → isUtf8 n = true)
    (hrange : ∀ rg, f.range = some rg → rg.start ≤ rg.stop)
    (hlang : ∃ l, unit.language = .ok l)
    (hloc : opts.wantsCodeInfo = true → ∃ o, r.units.findLocation σ addr = .ok o)
    (hlines : opts.wantsInlined = true → ∃ o, unit.lines σ = .ok o)
    (hinl : opts.wantsInlined = true → ∃ stack, r.units.findInlined σ addr f unit = .ok stack ∧
      ∀ fn ∈ stack, ∀ n, fn.name = some n → isUtf8 n = true) :
    ∃ sym, r.findSym σ addr opts = .ok (.ok sym) := by
  have h1 : nameOrEmpty f.name = .ok (f.name.getD []) := nameOrEmpty_ok.mpr ⟨rfl, hname⟩
  have h2 : ∃ size, rangeSize f.range = .ok size := by
    cases hr : f.range with
    | none => exact ⟨_, rfl⟩
    | some rg =>
      have : subU rg.stop rg.start = .ok (rg.stop - rg.start) := if_pos (hrange rg hr)
      simp only [rangeSize, this]
      exact ⟨_, rfl⟩
  obtain ⟨size, h2⟩ := h2
  obtain ⟨l, h3⟩ := hlang
  have h4 : ∀ sym, ∃ sym', r.units.fillCodeInfo σ sym addr opts (some (f, unit)) = .ok sym' := by
    intro sym
    unfold Units.fillCodeInfo
    split
    · exact ⟨_, rfl⟩
    · rename_i hw
      obtain ⟨o, ho⟩ := hloc (by simpa using hw)
      simp only [ho, bind, Except.bind]
      cases o with
      | none => exact ⟨_, rfl⟩
      | some loc =>
        simp only
        split
        · rename_i hi
          obtain ⟨stack, k1, k2⟩ := hinl hi
          obtain ⟨lines, k3⟩ := hlines hi
          obtain ⟨res, k4⟩ := inlineLoop_isOk σ unit lines k3 stack loc.codeInfo [] k2
          simp only [k1, k4]
          exact ⟨_, rfl⟩
        · exact ⟨_, rfl⟩
  obtain ⟨sym, h4⟩ := h4 { name := f.name.getD [], module := r.module,
                           addr := (f.range.map Range.start).getD 0, size, lang := srcLang l,
                           codeInfo := none, inlined := [] }
  refine ⟨sym, ?_⟩
  unfold Resolver.findSym
  simp only [hf, bind, Except.bind, h1, h2, h3, h4]
  rfl

/-- **C64** (negation): symbolization panics for a function whose entry has both a list of ranges and an
end before its lowest address. -/
theorem C64_extent_wrong (σ : Sorter) (r : Resolver) (addr : Nat) (opts : FindSymOpts) (f : Function)
    (unit : Unit) (hf : r.units.findFunction σ addr = .ok (some (f, unit)))
    (hname : ∀ n, f.name = some n → isUtf8 n = true) (rg : Range) (hr : f.range = some rg)
    (hlt : rg.stop < rg.start) : r.findSym σ addr opts = .error .panic := by
  have h1 : nameOrEmpty f.name = .ok (f.name.getD []) := nameOrEmpty_ok.mpr ⟨rfl, hname⟩
  have h2 : subU rg.stop rg.start = .error .panic := if_neg (by omega)
  unfold Resolver.findSym
  simp only [hf, bind, Except.bind, h1, hr, rangeSize, h2]
  rfl

/-- **C64** (negation): the symbol of a function described by a list of ranges only has address zero and
no size. -/
theorem C64_ranges_wrong (σ : Sorter) (s : Sections) (r : Resolver) (hu : parseUnits σ s = .ok r.units)
    (hs : HeadersSorted s) (addr : Nat) (ha : addr + 1 < 2 ^ 64) (opts : FindSymOpts) (f : Function) (unit : Unit)
    (hf : r.units.findFunction σ addr = .ok (some (f, unit)))
    (honly : ∀ d x, FunctionFor unit.header addr d x → spanOf x.2.attrs = none)
    (sym : ResolvedSym) (h : r.findSym σ addr opts = .ok (.ok sym)) : sym.addr = 0 ∧ sym.size = none := by
  obtain ⟨k1, d', x', _, k3, k4, k5, k6⟩ := C64_found σ s r.units hu hs addr ha f unit hf
  obtain ⟨sym', size, lang, q1, q2, ql, q3, q4⟩ := findSym_function hf h
  have := Except.ok.inj q1
  subst this
  obtain ⟨e1, e2, e3, e4, e5⟩ := fillCodeInfo_keeps q4
  rw [honly d' x' k3] at k6
  rw [k6] at q2 e3
  have := Except.ok.inj q2
  exact ⟨e3, by rw [e4, ← this]⟩

/-! ### Languages -/

/-- **C64** (language): the language of a unit whose root entry has not been looked at before is that of
the first such attribute of the entry. -/
theorem C64_language (u : Unit) (hdef : u.deferred = true) (main : MainUnit) (hm : u.header.unit = .ok main)
    (off : Nat) (e : Entry) (rest : Stream) (he : main.dies.entries none = .ok ((off, .entry e) :: rest))
    (l : Option Nat) : u.language = .ok l ↔
      (∃ pre a post, e.attrs = pre ++ a :: post ∧ (∀ b ∈ pre, b.name ≠ .language) ∧ a.name = .language ∧
        l = languageOf a.value) ∨
      ((∀ a ∈ e.attrs, a.name ≠ .language) ∧ e.fail = none ∧ l = none) := by
  have hscan : u.language = langScan e.fail e.attrs := by
    unfold Unit.language
    simp only [hm, bind, Except.bind, hdef, if_true, he]
  rw [hscan]
  generalize e.attrs = attrs
  induction attrs with
  | nil =>
    cases hf : e.fail with
    | some err => simp [langScan, finish]
    | none => simp [langScan, finish, eq_comm]
  | cons a t ih =>
    rw [langScan]
    by_cases hn : a.name = .language
    · rw [if_pos hn]
      constructor
      · intro h
        refine .inl ⟨[], a, t, rfl, by simp, hn, ?_⟩
        cases hv : a.value <;> rw [hv] at h <;> exact (Except.ok.inj h).symm
      · rintro (⟨pre, b, post, h1, h2, h3, h4⟩ | ⟨h1, _⟩)
        · cases pre with
          | nil =>
            simp only [List.nil_append, List.cons.injEq] at h1
            rw [h4, ← h1.1]
            cases a.value <;> rfl
          | cons c pre =>
            simp only [List.cons_append, List.cons.injEq] at h1
            exact absurd (h1.1 ▸ hn) (h2 c List.mem_cons_self)
        · exact absurd hn (h1 a List.mem_cons_self)
    · rw [if_neg hn]
      refine Iff.trans ih ?_
      constructor
      · rintro (⟨pre, b, post, h1, h2, h3, h4⟩ | ⟨h1, h2⟩)
        · refine .inl ⟨a :: pre, b, post, by rw [h1]; rfl, ?_, h3, h4⟩
          intro c hc
          rcases List.mem_cons.mp hc with hc | hc
          · rw [hc]; exact hn
          · exact h2 c hc
        · refine .inr ⟨?_, h2⟩
          intro c hc
          rcases List.mem_cons.mp hc with hc | hc
          · rw [hc]; exact hn
          · exact h1 c hc
      · rintro (⟨pre, b, post, h1, h2, h3, h4⟩ | ⟨h1, h2⟩)
        · cases pre with
          | nil =>
            simp only [List.nil_append, List.cons.injEq] at h1
            rw [← h1.1] at h3
            exact absurd h3 hn
          | cons c pre =>
            simp only [List.cons_append, List.cons.injEq] at h1
            exact .inl ⟨pre, b, post, h1.2, fun y hy => h2 y (List.mem_cons_of_mem _ hy), h3, h4⟩
        · exact .inr ⟨fun c hc => h1 c (List.mem_cons_of_mem _ hc), h2⟩

end Blazesym.Dwarf
