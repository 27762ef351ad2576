import Verif.Dwarf.ResolverProps
import Verif.Dwarf.Open
import Verif.Util.InsertSorter
import Verif.Symbolize.SymbolizerProps
import Verif.PerfMap.PerfMap
import Verif.Gsym.Resolver
import Verif.Breakpad.Resolver
import Verif.Kernel.Ksym

/-! # C79: how names are shown -/

set_option autoImplicit false

namespace Blazesym.Dwarf
open Blazesym.Util Blazesym.Spec.Dwarf
open Blazesym.Symbolize hiding Resolver
open Blazesym.Spec.Symbolize (Shown)

/-! ### All sources -/

/-- **C79** (names): the names of a symbol that is reported, and of the functions inlined at the address, are
those that were found, shown according to the language of the symbol.
Partial: inlined functions of another language, for which it is false (`C79_inlined_wrong`). -/
theorem C79_names_partial (env : Symbolize.Env) (find : SymFn) (addr : Nat) (y : Sym)
    (h : env.symbolizeWith addr find = .ok (.sym y)) :
    ∃ s, find addr env.opts = .ok (.ok s) ∧ Shown env.demangler env.demangle s.lang s.name y.name ∧
      List.Forall₂ (fun (f g : InlinedFn) => Shown env.demangler env.demangle s.lang f.name g.name ∧
        g.codeInfo = f.codeInfo) s.inlined y.inlined := by
  unfold Symbolize.Env.symbolizeWith symbolizeWithResolver at h
  cases hf : find addr env.opts with
  | error e => rw [hf] at h; cases h
  | ok r =>
    cases r with
    | error r => rw [hf] at h; cases h
    | ok s =>
      rw [hf] at h
      simp only [convertSym] at h
      cases hs : subU addr s.addr with
      | error e => rw [hs] at h; cases h
      | ok o =>
        rw [hs] at h
        simp only [Except.ok.injEq, Symbolized.sym.injEq] at h
        subst h
        refine ⟨s, rfl, (C79_scheme _ _ _ _ _).mp rfl, ?_⟩
        simp only [List.forall₂_map_right_iff]
        exact List.forall₂_same.mpr fun f _ => ⟨(C79_scheme _ _ _ _ _).mp rfl, rfl⟩

theorem gsym_keeps {ctx : Gsym.Context} {sym sym' : ResolvedSym} {addr : Nat} {opts : FindSymOpts} {symAddr : Nat}
    {info : Gsym.AddrInfo} (h : Gsym.fillCodeInfo ctx sym addr opts symAddr info = .ok sym') :
    sym'.lang = sym.lang := by
  unfold Gsym.fillCodeInfo at h
  split at h
  · obtain ⟨⟨row, stack⟩, _, h⟩ := bind_ok h
    cases row with
    | none => cases h; rfl
    | some row =>
      obtain ⟨li, _, h⟩ := bind_ok h
      cases stack with
      | nil => cases h; rfl
      | cons first frames =>
        obtain ⟨name, _, h⟩ := bind_ok h
        obtain ⟨⟨li', inl⟩, _, h⟩ := bind_ok h
        cases h; rfl
  · cases h; rfl

theorem breakpad_keeps {file : Breakpad.SymbolFile} {sym sym' : ResolvedSym} {addr : Nat} {opts : FindSymOpts}
    {func : Breakpad.Function} (h : file.fillCodeInfo sym addr opts func = .ok sym') : sym'.lang = sym.lang := by
  unfold Breakpad.SymbolFile.fillCodeInfo at h
  repeat' split at h
  all_goals first | (cases h; rfl) | cases h

/-- **C79** (no language): of symbols that are not from debug information the language is not known. -/
theorem C79_no_language (addr : Nat) (opts : FindSymOpts) (s : ResolvedSym) :
    (∀ (t : Tools) (p : ElfParser), p.findSym t addr opts = .ok (.ok s) → s.lang = .unknown) ∧
    (∀ ctx : Gsym.Context, Gsym.findSym ctx addr opts = .ok (.ok s) → s.lang = .unknown) ∧
    (∀ file : Breakpad.SymbolFile, file.findSym addr opts = .ok (.ok s) → s.lang = .unknown) ∧
    (∀ fs : List PerfMap.Function, PerfMap.findSym fs addr opts = .ok (.ok s) → s.lang = .unknown) ∧
    (∀ lines ks, Kernel.ksymFindSym lines ks addr opts = .ok (.ok s) → s.lang = .unknown) := by
  refine ⟨?_, ?_, ?_, ?_, ?_⟩
  · intro t p h
    unfold ElfParser.findSym at h
    split at h
    · cases h
    · cases h
    · cases h; rfl
  · intro ctx h
    unfold Gsym.findSym at h
    split at h
    · cases h
    · obtain ⟨a, _, h⟩ := bind_ok h
      split at h
      · cases h
      · obtain ⟨info, _, h⟩ := bind_ok h
        obtain ⟨b, _, h⟩ := bind_ok h
        split at h
        · cases h
        · obtain ⟨name, _, h⟩ := bind_ok h
          obtain ⟨sym, h1, h⟩ := bind_ok h
          cases h
          exact gsym_keeps h1
  · intro file h
    unfold Breakpad.SymbolFile.findSym at h
    split at h
    · cases h
    · cases h
    · split at h
      · cases h
      · rename_i h1
        cases h
        exact breakpad_keeps h1
  · intro fs h
    unfold PerfMap.findSym at h
    split at h
    · rename_i idx _
      generalize fs.drop idx = l at h
      induction l with
      | nil => cases h
      | cons f t ih =>
        rw [PerfMap.scan] at h
        repeat' split at h
        all_goals first | (cases h; rfl) | cases h | exact ih h
    · cases h
  · intro lines ks h
    unfold Kernel.ksymFindSym at h
    split at h
    · rename_i k _
      split at h
      · cases h
      · rename_i h1
        cases h
        cases k with
        | kfunc a n => cases h1; rfl
        | bpfProg prog =>
          simp only [Kernel.Ksym.resolve, Kernel.BpfProg.resolve] at h1
          split at h1
          · cases h1
          · cases h1; rfl
    · cases h

/-! ### Debug information -/

/-- **C79** (debug information): a symbol that is found with debug information is of a function with the address in
its code, and of the language that the unit of the function states; or it is the symbol of the ELF file.
Partial: split units that state the language where their entries are, for which it is false
(`C79_split_wrong`). -/
theorem C79_debug_partial (σ : Sorter) (s : Sections) (r : Resolver) (hu : parseUnits σ s = .ok r.units)
    (hs : HeadersSorted s) (addr : Nat) (ha : addr + 1 < 2 ^ 64) (opts : FindSymOpts) (sym : ResolvedSym)
    (h : r.findSym σ addr opts = .ok (.ok sym)) :
    (∃ hd d x name, UnitFor s addr hd ∧ FunctionFor hd addr d x ∧ HasName r.units.units d x.2.attrs name ∧
      sym.name = name.getD [] ∧ WrittenIn hd sym.lang) ∨
    (∃ elf, r.elfFindSym addr opts = .ok (.ok elf) ∧ sym.name = elf.name ∧ sym.lang = elf.lang) := by
  cases ho : r.units.findFunction σ addr with
  | error e =>
    unfold Resolver.findSym at h
    rw [ho] at h
    simp [bind, Except.bind] at h
  | ok o =>
    cases o with
    | some fu =>
      obtain ⟨f, unit⟩ := fu
      obtain ⟨k1, d, x, _, k3, k4, k5, k6⟩ := C64_found σ s r.units hu hs addr ha f unit ho
      obtain ⟨sym', size, lang, q1, q2, ql, q3, q4⟩ := findSym_function ho h
      have := Except.ok.inj q1
      subst this
      obtain ⟨e1, e2, e3, e4, e5⟩ := fillCodeInfo_keeps q4
      exact .inl ⟨unit.header, d, x, f.name, k1, k3, k5, e1, e5 ▸ unit_written hu (found_mem hu ha ho) ql⟩
    | none =>
      unfold Resolver.findSym at h
      rw [ho] at h
      obtain ⟨_, h1, h⟩ := bind_ok h
      cases h1
      simp only at h
      obtain ⟨elf, h2, h⟩ := bind_ok h
      cases elf with
      | error reason => cases h
      | ok e =>
        obtain ⟨sym', h3, h⟩ := bind_ok h
        cases h
        obtain ⟨e1, _, _, _, e5⟩ := fillCodeInfo_keeps h3
        exact .inr ⟨e, h2, e1, e5⟩

/-! ### What is wrong -/

/-- A unit with one function. -/
def exMixDies (name : Bytes) (root code : List Attr) (more : Stream) : DieUnit where
  version := 4
  entries := fun o => .ok (((11, .entry ⟨.other, true, root ++ code, none⟩) ::
    (20, .entry ⟨.subprogram, true, ⟨.linkageName, .string name⟩ :: code, none⟩) :: more).filter
      (fun x => decide (o.getD 0 ≤ x.1)))

def exMixCode : List Attr := [⟨.lowPc, .addr 0x1000⟩, ⟨.highPc, .udata 0x40⟩]

def exMixProg : LineProgram :=
  { rows := [⟨0x1000, 1, 5, 3, false⟩, ⟨0x1040, 1, 0, 0, true⟩], fail := none, file0 := none,
    files := [⟨0, none, .ok (ascii "a.rs")⟩] }

/-- A unit in C++ with a function. -/
def exCppHeader : Header where
  inInfo := true
  offset := 200
  kind := .compile
  valid := fun n => decide (11 ≤ n)
  unit := .ok { dies := exMixDies (ascii "_Z1gv") [⟨.language, .language 4⟩] [] [(30, .null), (31, .null)],
                compDir := some (ascii "/src"), line := none, dwo := .ok none }

/-- A unit in Rust with a function, in which the function of the unit in C++ is inlined. -/
def exRustHeader : Header where
  inInfo := true
  offset := 0
  kind := .compile
  valid := fun n => decide (11 ≤ n)
  unit := .ok { dies := exMixDies (ascii "_RNvC1a1f") [⟨.language, .language 28⟩] exMixCode
                  [(30, .entry ⟨.inlinedSubroutine, false, ⟨.abstractOrigin, .infoRef 220⟩ :: exMixCode, none⟩),
                   (40, .null), (41, .null)],
                compDir := some (ascii "/src"), line := some exMixProg, dwo := .ok none }

/-- A unit in C++ that is split: the entries are elsewhere. -/
def exSplitHeader : Header where
  inInfo := true
  offset := 0
  kind := .compile
  valid := fun n => decide (11 ≤ n)
  unit := .ok { dies := ⟨4, fun _ => .ok [(11, .entry ⟨.other, false, exMixCode, none⟩)]⟩,
                compDir := some (ascii "/src"), line := none,
                dwo := .ok (some (exMixDies (ascii "_ZN1a17h0000000000000000E") [⟨.language, .language 4⟩] exMixCode
                  [(30, .null), (31, .null)])) }

def exMixSections (headers : List Header) : Sections where
  aranges := []
  arangesFail := none
  headersFail := none
  headers

def exMixed (units : Units) : Resolver where
  units
  module := some (ascii "/bin/ls")
  elfFindSym := fun _ _ => .ok (.error .unknownAddr)
  elfFindAddr := fun _ _ => .ok []
  fileOffset := fun a _ => .ok (some (a - 0x1000))

/-- Parses the units and looks up the address. -/
def exMixLookup (headers : List Header) : Except Err (Except Reason ResolvedSym) := do
  let u ← parseUnits insertSorter (exMixSections headers)
  (exMixed u).findSym insertSorter 0x1008 .codeInfoAndInlined

theorem exMixLookup_ok {headers : List Header} {s : ResolvedSym} (h : exMixLookup headers = .ok (.ok s)) :
    ∃ u, parseUnits insertSorter (exMixSections headers) = .ok u ∧
      (exMixed u).findSym insertSorter 0x1008 .codeInfoAndInlined = .ok (.ok s) := by
  obtain ⟨u, h1, h2⟩ := bind_ok h
  exact ⟨u, h1, h2⟩

theorem exMixed_found : (exMixLookup [exRustHeader, exCppHeader]).map
    (fun r => r.map (fun s => (s.lang, s.name, s.inlined.map InlinedFn.name, decide (s.addr ≤ 0x1008)))) =
      .ok (.ok (.rust, ascii "_RNvC1a1f", [ascii "_Z1gv"], true)) := by
  decide +kernel

theorem exSplit_found : (exMixLookup [exSplitHeader]).map
    (fun r => r.map (fun s => (s.lang, s.name, s.inlined.map InlinedFn.name, decide (s.addr ≤ 0x1008)))) =
      .ok (.ok (.unknown, ascii "_ZN1a17h0000000000000000E", [], true)) := by
  decide +kernel

theorem found_of {r : Except Err (Except Reason ResolvedSym)} {l : SrcLang} {n : Bytes} {ns : List Bytes} {b : Bool}
    {a : Nat}
    (h : r.map (fun r => r.map (fun s => (s.lang, s.name, s.inlined.map InlinedFn.name, decide (s.addr ≤ a)))) =
      .ok (.ok (l, n, ns, b))) :
    ∃ s, r = .ok (.ok s) ∧ s.lang = l ∧ s.name = n ∧ s.inlined.map InlinedFn.name = ns ∧ decide (s.addr ≤ a) = b := by
  cases r with
  | error e => cases h
  | ok r =>
    cases r with
    | error e => cases h
    | ok s =>
      simp only [Except.map, Except.ok.injEq, Prod.mk.injEq] at h
      exact ⟨s, rfl, h⟩

/-- The hypotheses of `C79_debug_partial` are met. -/
example : ∃ u s, parseUnits insertSorter (exMixSections [exRustHeader, exCppHeader]) = .ok u ∧
    HeadersSorted (exMixSections [exRustHeader, exCppHeader]) ∧
    (exMixed u).findSym insertSorter 0x1008 .codeInfoAndInlined = .ok (.ok s) ∧ s.lang = .rust := by
  obtain ⟨s, h1, h2, _⟩ := found_of exMixed_found
  obtain ⟨u, hu, hf⟩ := exMixLookup_ok h1
  exact ⟨u, s, hu, by simp [HeadersSorted, exMixSections, exRustHeader, exCppHeader], hf, h2⟩

/-- How the symbol is shown. -/
theorem shown_of {d : Demangler} {find : SymFn} {addr : Nat} {opts : FindSymOpts} {s : ResolvedSym}
    (hf : find addr opts = .ok (.ok s)) (hle : s.addr ≤ addr) :
    ∃ y, symbolizeWithResolver d true opts addr find = .ok (.sym y) ∧
      y.name = maybeDemangleImpl d s.name s.lang ∧
      y.inlined.map InlinedFn.name = (s.inlined.map InlinedFn.name).map (fun n => maybeDemangleImpl d n s.lang) := by
  unfold symbolizeWithResolver
  rw [hf]
  simp only [convertSym, subU, if_pos hle]
  exact ⟨_, rfl, rfl, by simp [maybeDemangle, Function.comp_def]⟩

/-- **C79** (negation): the name of an inlined function is shown according to the language of the function it is
inlined into.  In a file where a function in C++ is inlined into a function in Rust its mangled name is
reported, although the scheme of C++ recognises it. -/
theorem C79_inlined_wrong : ∃ (s : Sections) (r : Resolver) (hd : Header) (d : DieUnit) (stream : Stream)
    (e : Entry) (name shown : Bytes),
    parseUnits insertSorter s = .ok r.units ∧ hd ∈ s.headers ∧ WrittenIn hd .cpp ∧
      EntriesOf hd d stream ∧ (20, .entry e) ∈ stream ∧ HasName r.units.units d e.attrs (some name) ∧ name ≠ shown ∧
      ∀ dm : Demangler, dm.cpp name = some shown → dm.rust name = none →
        ∃ y, symbolizeWithResolver dm true .codeInfoAndInlined 0x1008 (r.findSym insertSorter) = .ok (.sym y) ∧
          y.inlined.map InlinedFn.name = [name] := by
  obtain ⟨s, h1, h2, h3, h4, h5⟩ := found_of exMixed_found
  obtain ⟨u, hu, hf⟩ := exMixLookup_ok h1
  refine ⟨exMixSections [exRustHeader, exCppHeader], exMixed u, exCppHeader,
    exMixDies (ascii "_Z1gv") [⟨.language, .language 4⟩] [] [(30, .null), (31, .null)], _,
    ⟨.subprogram, true, [⟨.linkageName, .string (ascii "_Z1gv")⟩], none⟩, ascii "_Z1gv", ascii "g()",
    hu, by simp [exMixSections], ?_, ⟨_, rfl, .inr ⟨rfl, rfl⟩, rfl⟩, ?_, ?_, by decide +kernel, ?_⟩
  · exact ⟨_, rfl, .inl ⟨_, ⟨11, _, rfl⟩, .inl ⟨⟨.language, .language 4⟩, by simp, rfl, rfl⟩⟩⟩
  · simp [exMixDies]
  · rfl
  · intro dm hc hr
    obtain ⟨y, y1, _, y3⟩ := shown_of (d := dm) hf (by simpa using h5)
    refine ⟨y, y1, ?_⟩
    rw [y3, h4, h2]
    simp [maybeDemangleImpl, hr]

/-- **C79** (negation): if a unit is split, the language is not looked for where its entries are, but only in the
stub that is left of it, which need not state it.  Then a name in C++ that the scheme of Rust recognises too
is shown as if it were in Rust. -/
theorem C79_split_wrong : ∃ (s : Sections) (r : Resolver) (hd : Header) (d : DieUnit) (stream : Stream) (root e : Entry)
    (name : Bytes), parseUnits insertSorter s = .ok r.units ∧ hd ∈ s.headers ∧ EntriesOf hd d stream ∧
      (∃ off rest, stream = (off, .entry root) :: rest) ∧
      (∃ a ∈ root.attrs, a.name = .language ∧ languageName a.value = .cpp) ∧
      (20, .entry e) ∈ stream ∧ FunctionFor hd 0x1008 d (20, e) ∧ HasName r.units.units d e.attrs (some name) ∧
      ∀ (dm : Demangler) (asRust asCpp : Bytes), dm.cpp name = some asCpp → dm.rust name = some asRust →
        ∃ y, symbolizeWithResolver dm true .codeInfoAndInlined 0x1008 (r.findSym insertSorter) = .ok (.sym y) ∧
          y.name = asRust := by
  obtain ⟨s, h1, h2, h3, h4, h5⟩ := found_of exSplit_found
  obtain ⟨u, hu, hf⟩ := exMixLookup_ok h1
  refine ⟨exMixSections [exSplitHeader], exMixed u, exSplitHeader, _, _, _, 
    ⟨.subprogram, true, ⟨.linkageName, .string (ascii "_ZN1a17h0000000000000000E")⟩ :: exMixCode, none⟩,
    ascii "_ZN1a17h0000000000000000E",
    hu, by simp [exMixSections], ⟨_, rfl, .inl rfl, rfl⟩, ⟨_, _, rfl⟩, ⟨⟨.language, .language 4⟩, by simp, rfl, rfl⟩, ?_, ?_, ?_, ?_⟩
  · simp
  · refine ⟨_, ⟨_, rfl, .inl rfl, rfl⟩, ?_, ⟨0x1000, 0x1040⟩, ?_, by decide, by decide⟩
    · exact List.mem_cons_self
    · decide
  · rfl
  · intro dm asRust asCpp hc hr
    obtain ⟨y, y1, y2, _⟩ := shown_of (d := dm) hf (by simpa using h5)
    refine ⟨y, y1, ?_⟩
    rw [y2, h3, h2]
    simp [maybeDemangleImpl, hr]

end Blazesym.Dwarf
