import Verif.Kernel.KsymSpec
import Verif.Kernel.BpfProps
import Verif.Breakpad.NameProps

/-! # C30, C31, C45 (kallsyms) -/

set_option autoImplicit false

namespace Blazesym.Kernel
open Blazesym.Util Blazesym.Spec Blazesym.Spec.Kernel Blazesym.Symbolize
open Blazesym.Breakpad (nameKey nameKey_inj)
open Blazesym.PerfMap (hex_iff)

/-! ### Loading -/

theorem bpfName_unique {name tag tag' : Bytes} (h : BpfName name tag) (h' : BpfName name tag') : tag = tag' := by
  obtain ⟨t, h1, h2, h3⟩ := h
  obtain ⟨t', h4, h5, h6⟩ := h'
  have a := (C50_parse name 0 ⟨0, name, tag⟩).mpr ⟨rfl, rfl, h2, t, h1, h3⟩
  have b := (C50_parse name 0 ⟨0, name, tag'⟩).mpr ⟨rfl, rfl, h5, t', h4, h6⟩
  rw [a] at b
  simpa using b

theorem new_ok (bpf : Bool) (name : Bytes) (addr : Nat) (k : Ksym) :
    Ksym.new bpf name addr = .ok k ↔ ¬ BadName bpf name ∧ Denotes bpf name addr k := by
  unfold Ksym.new BadName
  cases bpf with
  | false =>
    simp only [Bool.false_eq_true, if_false, Except.ok.injEq, false_and, not_false_iff, true_and]
    constructor
    · rintro rfl; exact .func (Or.inl rfl)
    · intro h
      cases h with
      | prog _ hb _ => cases hb
      | func _ => rfl
  | true =>
    simp only [if_true, true_and]
    have hp := C50_parse_panics name addr
    have hs := C50_parse name addr
    constructor
    · intro h
      cases hr : BpfProg.parse name addr with
      | error e => rw [hr] at h; simp at h
      | ok o =>
        have hbad : ¬ ∃ t, ProgName name t ∧ Straddles t := by
          intro hc
          rw [(hp .panic).mpr ⟨rfl, hc⟩] at hr
          simp at hr
        refine ⟨hbad, ?_⟩
        cases o with
        | none =>
          rw [hr] at h
          have h' : Ksym.kfunc addr name = k := by simpa using h
          subst h'
          refine .func (Or.inr ?_)
          rintro tag ⟨t, h1, h2, h3⟩
          rw [(hs ⟨addr, name, tag⟩).mpr ⟨rfl, rfl, h2, t, h1, h3⟩] at hr
          simp at hr
        | some prog =>
          rw [hr] at h
          have h' : Ksym.bpfProg prog = k := by simpa using h
          subst h'
          obtain ⟨h1, h2, h3, t, h4, h5⟩ := (hs prog).mp hr
          have : prog = ⟨addr, name, prog.tag⟩ := by cases prog; simp_all
          rw [this]
          exact .prog prog.tag rfl ⟨t, h4, h3, h5⟩
    · rintro ⟨hbad, hd⟩
      cases hd with
      | prog tag _ h =>
        obtain ⟨t, h1, h2, h3⟩ := h
        rw [(hs ⟨addr, name, tag⟩).mpr ⟨rfl, rfl, h2, t, h1, h3⟩]
      | func h =>
        rcases h with h | h
        · cases h
        · cases hr : BpfProg.parse name addr with
          | error e => exact absurd ((hp e).mp hr).2 hbad
          | ok o =>
            cases o with
            | none => rfl
            | some prog =>
              obtain ⟨_, _, h3, t, h4, h5⟩ := (hs prog).mp hr
              exact absurd ⟨t, h4, h3, h5⟩ (h prog.tag)

theorem new_err (bpf : Bool) (name : Bytes) (addr : Nat) (e : Err) :
    Ksym.new bpf name addr = .error e ↔ e = .panic ∧ BadName bpf name := by
  unfold Ksym.new BadName
  cases bpf with
  | false => simp
  | true =>
    simp only [if_true, true_and]
    rw [← C50_parse_panics name addr e]
    cases hr : BpfProg.parse name addr with
    | error e' => simp
    | ok o => cases o <;> simp

theorem denotes_addr {bpf : Bool} {name : Bytes} {addr : Nat} {k : Ksym} (h : Denotes bpf name addr k) :
    k.name = name ∧ k.addr = addr := by
  cases h <;> exact ⟨rfl, rfl⟩

/-- The address and name a line gives. -/
def lineParts (line : Bytes) : Option (Bytes × Nat) :=
  match splitAsciiWhitespace line with
  | a :: _ :: name :: _ =>
    match fromStrRadix u64Size 16 a with
    | none => none
    | some addr => if addr = 0 then none else some (name, addr)
  | _ => none

theorem lineParts_iff (line name : Bytes) (addr : Nat) :
    lineParts line = some (name, addr) ↔ SymLine line name addr := by
  unfold lineParts SymLine
  constructor
  · intro h
    split at h
    · rename_i a typ nm rest hw
      split at h
      · simp at h
      · rename_i v hv
        split at h
        · simp at h
        · rename_i h0
          obtain ⟨h1, h2⟩ := (hex_iff a v).mp hv
          have h' : nm = name ∧ v = addr := by simpa using h
          obtain ⟨rfl, rfl⟩ := h'
          exact ⟨a, typ, rest, (words_iff ..).mp hw, h1, by omega, h2⟩
    · simp at h
  · rintro ⟨a, typ, rest, hw, h1, h2, h3⟩
    rw [(words_iff ..).mpr hw]
    simp only
    rw [(hex_iff a addr).mpr ⟨h1, h3⟩]
    simp only
    rw [if_neg (by omega)]

theorem parseKsymLine_eq (bpf : Bool) (line : Bytes) :
    parseKsymLine bpf line = match lineParts line with
      | none => .ok none
      | some (name, addr) => match Ksym.new bpf name addr with
        | .error e => .error e
        | .ok k => .ok (some k) := by
  unfold parseKsymLine lineParts
  generalize splitAsciiWhitespace line = ws
  match ws with
  | [] => rfl
  | [_] => rfl
  | [_, _] => rfl
  | a :: _ :: name :: _ =>
    simp only
    cases fromStrRadix u64Size 16 a with
    | none => rfl
    | some v =>
      simp only
      by_cases h0 : v = 0
      · rw [if_pos h0, if_pos h0]
      · rw [if_neg h0, if_neg h0]
        simp only
        cases Ksym.new bpf name v <;> rfl

theorem parseKsymLines_ok (bpf : Bool) (lines : List Bytes) (ks : List Ksym) :
    parseKsymLines bpf lines = .ok ks ↔ Kept bpf lines ks := by
  induction lines generalizing ks with
  | nil =>
    simp only [parseKsymLines, Except.ok.injEq]
    constructor
    · rintro rfl; exact .nil
    · intro h; cases h; rfl
  | cons line rest ih =>
    rw [parseKsymLines, parseKsymLine_eq]
    constructor
    · intro h
      split at h
      · rename_i hu
        cases hp : lineParts line with
        | none =>
          rw [hp] at h
          simp only at h
          split at h
          · simp at h
          · rename_i ks' hk
            have h' : ks' = ks := by simpa using h
            subst h'
            refine .skip line rest ks' hu ?_ ((ih ks').mp hk)
            intro name addr hs
            rw [(lineParts_iff ..).mpr hs] at hp
            simp at hp
        | some p =>
          obtain ⟨name, addr⟩ := p
          rw [hp] at h
          simp only at h
          cases hn : Ksym.new bpf name addr with
          | error e => rw [hn] at h; simp at h
          | ok k =>
            rw [hn] at h
            simp only at h
            split at h
            · simp at h
            · rename_i ks' hk
              have h' : k :: ks' = ks := by simpa using h
              subst h'
              obtain ⟨hb, hd⟩ := (new_ok ..).mp hn
              exact .keep line rest ks' hu name addr ((lineParts_iff ..).mp hp) hb k hd ((ih ks').mp hk)
      · simp at h
    · intro h
      cases h with
      | skip _ _ _ hu hn hr =>
        rw [if_pos hu]
        have : lineParts line = none := by
          cases hp : lineParts line with
          | none => rfl
          | some p => exact absurd ((lineParts_iff line p.1 p.2).mp hp) (hn p.1 p.2)
        rw [this]
        simp only
        rw [(ih ks).mpr hr]
        rfl
      | keep _ _ ks' hu name addr hs hb k hd hr =>
        rw [if_pos hu, (lineParts_iff ..).mpr hs]
        simp only
        rw [(new_ok ..).mpr ⟨hb, hd⟩]
        simp only
        rw [(ih ks').mpr hr]
        rfl

theorem parseKsymLines_err (bpf : Bool) (lines : List Bytes) (e : Err) (h : parseKsymLines bpf lines = .error e) :
    (e = .invalidData ∧ ∃ l ∈ lines, isUtf8 l = false) ∨
    (e = .panic ∧ ∃ l ∈ lines, ∃ name addr, SymLine l name addr ∧ BadName bpf name) := by
  induction lines with
  | nil => simp [parseKsymLines] at h
  | cons line rest ih =>
    rw [parseKsymLines, parseKsymLine_eq] at h
    have up : ((e = .invalidData ∧ ∃ l ∈ rest, isUtf8 l = false) ∨
      (e = .panic ∧ ∃ l ∈ rest, ∃ name addr, SymLine l name addr ∧ BadName bpf name)) →
      ((e = .invalidData ∧ ∃ l ∈ line :: rest, isUtf8 l = false) ∨
      (e = .panic ∧ ∃ l ∈ line :: rest, ∃ name addr, SymLine l name addr ∧ BadName bpf name)) := by
      rintro (⟨h1, l, h2, h3⟩ | ⟨h1, l, h2, h3⟩)
      · exact Or.inl ⟨h1, l, by simp [h2], h3⟩
      · exact Or.inr ⟨h1, l, by simp [h2], h3⟩
    split at h
    · cases hp : lineParts line with
      | none =>
        rw [hp] at h
        simp only at h
        split at h
        · rename_i e' he'
          have h' : e' = e := by simpa using h
          subst h'
          exact up (ih he')
        · simp at h
      | some p =>
        obtain ⟨name, addr⟩ := p
        rw [hp] at h
        simp only at h
        cases hn : Ksym.new bpf name addr with
        | error e' =>
          rw [hn] at h
          have h' : e' = e := by simpa using h
          subst h'
          obtain ⟨h1, h2⟩ := (new_err ..).mp hn
          exact Or.inr ⟨h1, line, by simp, name, addr, (lineParts_iff ..).mp hp, h2⟩
        | ok k =>
          rw [hn] at h
          simp only at h
          split at h
          · rename_i e' he'
            have h' : e' = e := by simpa using h
            subst h'
            exact up (ih he')
          · simp at h
    · rename_i hu
      have : Err.invalidData = e := by simpa using h
      exact Or.inl ⟨this.symm, line, by simp, by simpa using hu⟩

/-- **C30** (loading): loading kallsyms keeps exactly the well-formed lines with an address other
than zero, sorted by address; lines with the same address stay in order. -/
theorem C30_load (bpf : Bool) (data : Bytes) (syms : List Ksym) :
    loadKallsyms bpf data = .ok syms ↔
      ∃ (lines : List Bytes) (ks : List Ksym), Lines data lines ∧ Kept bpf lines ks ∧ StableSorted Ksym.addr ks syms := by
  unfold loadKallsyms
  constructor
  · intro h
    split at h
    · simp at h
    · rename_i ks hk
      have h' : sortByKey Ksym.addr ks = syms := by simpa using h
      exact ⟨_, ks, (lines_iff ..).mp rfl, (parseKsymLines_ok ..).mp hk, h' ▸ sortByKey_stable _ _⟩
  · rintro ⟨lines, ks, h1, h2, h3⟩
    rw [(lines_iff ..).mpr h1, (parseKsymLines_ok ..).mpr h2]
    simp only
    rw [StableSorted.unique (sortByKey_stable _ _) h3]

/-- **C30** (loading, errors): loading fails only if some line is not valid text, and panics only
with BPF support and a name of a BPF program with a multibyte character in its tag. -/
theorem C30_load_errors (bpf : Bool) (data : Bytes) (e : Err) (h : loadKallsyms bpf data = .error e) :
    ∃ lines : List Bytes, Lines data lines ∧
      ((e = .invalidData ∧ ∃ l ∈ lines, isUtf8 l = false) ∨
       (e = .panic ∧ bpf = true ∧ ∃ l ∈ lines, ∃ name addr, SymLine l name addr ∧ BadName bpf name)) := by
  unfold loadKallsyms at h
  split at h
  · rename_i e' he'
    have h' : e' = e := by simpa using h
    subst h'
    refine ⟨splitLines data, (lines_iff ..).mp rfl, (parseKsymLines_err _ _ _ he').imp id ?_⟩
    rintro ⟨h1, l, h2, name, addr, h3, h4⟩
    exact ⟨h1, h4.1, l, h2, name, addr, h3, h4⟩
  · simp at h

/-! ### Address lookup -/

/-- Loaded symbols. -/
def Loaded (syms : List Ksym) : Prop := ∃ bpf data, loadKallsyms bpf data = .ok syms

theorem loaded_sorted {syms : List Ksym} (h : Loaded syms) : SortedBy syms Ksym.addr := by
  obtain ⟨bpf, data, h⟩ := h
  obtain ⟨_, ks, _, _, h⟩ := (C30_load ..).mp h
  exact h.1

/-- **C30** (lookup): the symbol found for an address is one with the greatest address not above it. -/
theorem C30_lookup {syms : List Ksym} (hl : Loaded syms) (addr : Nat) (k : Ksym) (h : findKsym syms addr = .ok k) :
    k ∈ syms ∧ k.addr ≤ addr ∧ ∀ k' ∈ syms, k'.addr ≤ addr → k'.addr ≤ k.addr := by
  unfold findKsym at h
  split at h
  · rename_i sym hs
    obtain ⟨idx, hi, hg⟩ := Option.bind_eq_some_iff.mp hs
    obtain ⟨e, he, h1, _, h2⟩ := C07_lower_bound_greatest syms Ksym.addr (loaded_sorted hl) addr idx hi
    rw [hg] at he
    have e1 : sym = e := by simpa using he
    have e2 : sym = k := by simpa using h
    subst e1 e2
    exact ⟨List.mem_of_getElem? hg, h1, h2⟩
  · split at h <;> simp at h

/-- **C30** (lookup fails): there is a result exactly if a symbol is not above the address; the
reason given otherwise tells whether there are symbols at all. -/
theorem C30_unknown {syms : List Ksym} (hl : Loaded syms) (addr : Nat) :
    ((∃ k, findKsym syms addr = .ok k) ↔ ∃ k ∈ syms, k.addr ≤ addr) ∧
    (findKsym syms addr = .error .missingSyms ↔ syms = []) ∧
    (findKsym syms addr = .error .unknownAddr ↔ syms ≠ [] ∧ ∀ k ∈ syms, addr < k.addr) := by
  have hn := C07_lower_bound_none syms Ksym.addr (loaded_sorted hl) addr
  unfold findKsym
  cases hi : findMatchOrLowerBoundByKey syms addr Ksym.addr with
  | none =>
    have hall := hn.mp hi
    simp only [Option.bind_none]
    cases syms with
    | nil => simp
    | cons a t =>
      simp only [List.isEmpty_cons]
      refine ⟨?_, by simp, by simpa using hall⟩
      constructor
      · rintro ⟨k, hk⟩; simp at hk
      · rintro ⟨k, hk, hle⟩; have := hall k hk; omega
  | some idx =>
    obtain ⟨e, he, h1, _, h2⟩ := C07_lower_bound_greatest syms Ksym.addr (loaded_sorted hl) addr idx hi
    have hm := List.mem_of_getElem? he
    simp only [Option.bind_some, he]
    refine ⟨⟨fun _ => ⟨e, hm, h1⟩, fun _ => ⟨e, rfl⟩⟩, ?_, ?_⟩
    · constructor
      · intro h; simp at h
      · rintro rfl; simp at hm
    · constructor
      · intro h; simp at h
      · rintro ⟨_, h⟩; have := h e hm; omega

/-- **C30** (aliases): among symbols with the address that is asked for, the one that is first in
the file is found. -/
theorem C30_alias {ks syms : List Ksym} (hs : StableSorted Ksym.addr ks syms) (addr : Nat) (k : Ksym)
    (h : (ks.filter (fun k => decide (k.addr = addr))).head? = some k) : findKsym syms addr = .ok k := by
  rw [← hs.2 addr] at h
  have hmem : k ∈ syms.filter (fun k => decide (k.addr = addr)) := List.mem_of_mem_head? h
  obtain ⟨hrm, hra⟩ := List.mem_filter.mp hmem
  have hra : k.addr = addr := by simpa using hra
  have hg : IsGreatestKeyLE syms Ksym.addr addr addr := ⟨le_refl _, ⟨k, hrm, hra⟩, fun e _ he => he⟩
  unfold findKsym
  cases hidx : findMatchOrLowerBoundByKey syms addr Ksym.addr with
  | none =>
    have := (C07_lower_bound_none syms Ksym.addr hs.1 addr).mp hidx k hrm
    omega
  | some idx =>
    obtain ⟨⟨e, he, hea⟩, hbefore⟩ :=
      C07_first_of_equals_partial syms Ksym.addr hs.1 addr addr hg (Or.inl rfl) idx hidx
    simp only [Option.bind_some, he]
    obtain ⟨hlt, hget⟩ := List.getElem?_eq_some_iff.mp he
    have hsplit : syms = syms.take idx ++ e :: syms.drop (idx + 1) := by
      rw [← hget, List.cons_getElem_drop_succ, List.take_append_drop]
    rw [hsplit, List.filter_append] at h
    have hnil : (syms.take idx).filter (fun k => decide (k.addr = addr)) = [] := by
      rw [List.filter_eq_nil_iff]
      intro x hx
      obtain ⟨j, hj⟩ := List.mem_iff_getElem?.mp hx
      rw [List.getElem?_take] at hj
      split at hj
      · simpa using hbefore j x (by assumption) hj
      · simp at hj
    rw [hnil, List.nil_append, List.filter_cons_of_pos (by simpa using hea)] at h
    simpa using h

/-- **C30** (result): what is reported for an address is the symbol found, without module, size or
location for functions, and as described by C58 for BPF programs. -/
theorem C30_symbol (bpfLines : BpfLines) (syms : List Ksym) (addr : Nat) (opts : FindSymOpts) :
    (∀ reason, findKsym syms addr = .error reason → ksymFindSym bpfLines syms addr opts = .ok (.error reason)) ∧
    (∀ a name, findKsym syms addr = .ok (.kfunc a name) →
      ksymFindSym bpfLines syms addr opts = .ok (.ok ⟨name, none, a, none, .unknown, none, []⟩)) ∧
    (∀ prog, findKsym syms addr = .ok (.bpfProg prog) →
      (∀ sym, prog.resolve addr opts (bpfLines prog.tag) = .ok sym →
        ksymFindSym bpfLines syms addr opts = .ok (.ok sym)) ∧
      ∀ e, prog.resolve addr opts (bpfLines prog.tag) = .error e →
        ksymFindSym bpfLines syms addr opts = .error e) := by
  unfold ksymFindSym
  refine ⟨?_, ?_, ?_⟩
  · intro r h; rw [h]
  · intro a name h; rw [h]; rfl
  · intro prog h
    rw [h]
    refine ⟨?_, ?_⟩
    · intro sym hs; simp only [Ksym.resolve, hs]
    · intro e he; simp only [Ksym.resolve, he]

/-! ### Name lookup -/

theorem reports_iff (k : Ksym) (r : KsymInfo) : Reports k r ↔ r = k.toInfo := by
  unfold Reports Ksym.toInfo
  obtain ⟨⟨a, b, c, d, e⟩, m⟩ := r
  cases k <;> simp [Ksym.name, Ksym.addr, and_assoc]

theorem ksymByNameIdx_lt {syms : List Ksym} {i : Nat} (h : i ∈ ksymByNameIdx syms) : i < syms.length := by
  unfold ksymByNameIdx at h
  rw [mem_sortByKey] at h
  simpa using h

theorem ksymByNameIdx_sorted (syms : List Ksym) :
    SortedBy (ksymByNameIdx syms) (fun i => nameKey (ksymAt syms i).name) := by
  have := sortByKey_sorted (fun idx : Nat => toLex (nameKey (ksymAt syms idx).name,
    (ksymAt syms idx).addr)) (List.range syms.length)
  refine List.Pairwise.imp ?_ this
  intro a b hab
  rw [Prod.Lex.toLex_le_toLex] at hab
  rcases hab with h | h
  · exact le_of_lt h
  · exact le_of_eq h.1

/-- The symbols in the order of their names. -/
theorem mem_byName {syms : List Ksym} {k : Ksym} :
    k ∈ (ksymByNameIdx syms).map (ksymAt syms) ↔ k ∈ syms := by
  rw [List.mem_map]
  constructor
  · rintro ⟨i, hi, rfl⟩
    have := ksymByNameIdx_lt hi
    unfold ksymAt
    rw [List.getElem?_eq_getElem this]
    exact List.getElem_mem this
  · intro h
    obtain ⟨j, hj⟩ := List.mem_iff_getElem?.mp h
    have hjl := (List.getElem?_eq_some_iff.mp hj).1
    refine ⟨j, ?_, ?_⟩
    · unfold ksymByNameIdx
      rw [mem_sortByKey]
      exact List.mem_range.mpr hjl
    · unfold ksymAt; rw [hj]; rfl

/-- **C31** (variables): there are none. -/
theorem C31_variables (syms : List Ksym) (name : Bytes) : ksymFindAddr syms name .variable = [] := rfl

/-- Everything that is reported for a name: the symbols from the first one on whose name is the
greatest not above it, in the order of names.  (If the name is not present and the greatest one
below it is the smallest of all, only the last of several symbols of that name.) -/
theorem findAddr_reported (syms : List Ksym) (name : Bytes) (ty : Elf.SymType) (hty : ty ≠ .variable) :
    (ksymFindAddr syms name ty = [] ∧ ∀ k ∈ syms, nameKey name < nameKey k.name) ∨
    ∃ (idx : Nat) (e : Nat), findMatchOrLowerBoundByKey (ksymByNameIdx syms) (nameKey name)
        (fun i => nameKey (ksymAt syms i).name) = some idx ∧
      (ksymByNameIdx syms)[idx]? = some e ∧
      IsGreatestKeyLE (ksymByNameIdx syms) (fun i => nameKey (ksymAt syms i).name) (nameKey name)
        (nameKey (ksymAt syms e).name) ∧
      ksymFindAddr syms name ty = ((ksymByNameIdx syms).drop idx).map (fun i => (ksymAt syms i).toInfo) := by
  unfold ksymFindAddr
  rw [if_neg hty]
  simp only
  cases hi : findMatchOrLowerBoundByKey (ksymByNameIdx syms) (nameKey name)
        (fun i => nameKey (ksymAt syms i).name) with
  | none =>
    left
    refine ⟨rfl, ?_⟩
    intro k hk
    obtain ⟨i, h1, rfl⟩ := List.mem_map.mp (mem_byName.mpr hk)
    exact (C07_lower_bound_none _ _ (ksymByNameIdx_sorted syms) _).mp hi i h1
  | some idx =>
    right
    obtain ⟨e, he, hg⟩ := C07_lower_bound_greatest _ _ (ksymByNameIdx_sorted syms) _ idx hi
    exact ⟨idx, e, rfl, he, hg, rfl⟩

/-- **C31** (name lookup, the part that holds): looking up a name reports every symbol of that
name, and only known symbols, correctly.  That nothing else is reported is false, see
`C31_reports_others` and `C31_reports_absent`. -/
theorem C31_name_lookup_partial (syms : List Ksym) (name : Bytes) (ty : Elf.SymType) (hty : ty ≠ .variable) :
    (∀ k ∈ syms, k.name = name → ∃ r ∈ ksymFindAddr syms name ty, Reports k r) ∧
    ∀ r ∈ ksymFindAddr syms name ty, ∃ k ∈ syms, Reports k r := by
  rcases findAddr_reported syms name ty hty with ⟨h1, h2⟩ | ⟨idx, e, h1, h2, h3, h4⟩
  · rw [h1]
    refine ⟨?_, by simp⟩
    intro k hk hn
    have := h2 k hk
    rw [hn] at this
    exact absurd this (lt_irrefl _)
  · rw [h4]
    refine ⟨?_, ?_⟩
    · intro k hk hn
      obtain ⟨i, hi, rfl⟩ := List.mem_map.mp (mem_byName.mpr hk)
      have hg : IsGreatestKeyLE (ksymByNameIdx syms) (fun i => nameKey (ksymAt syms i).name) (nameKey name)
          (nameKey name) := ⟨le_refl _, ⟨i, hi, congrArg nameKey hn⟩, fun e _ he => he⟩
      obtain ⟨_, hbefore⟩ := C07_first_of_equals_partial _ _ (ksymByNameIdx_sorted syms) _ _ hg (Or.inl rfl) idx h1
      obtain ⟨j, hj⟩ := List.mem_iff_getElem?.mp hi
      have hij : idx ≤ j := by
        by_contra hc
        exact hbefore j i (by omega) hj (congrArg nameKey hn)
      refine ⟨_, List.mem_map.mpr ⟨i, ?_, rfl⟩, (reports_iff ..).mpr rfl⟩
      rw [List.mem_iff_getElem?]
      exact ⟨j - idx, by rw [List.getElem?_drop, show idx + (j - idx) = j by omega, hj]⟩
    · intro r hr
      obtain ⟨i, hi, rfl⟩ := List.mem_map.mp hr
      exact ⟨ksymAt syms i, mem_byName.mp (List.mem_map.mpr ⟨i, List.mem_of_mem_drop hi, rfl⟩), (reports_iff ..).mpr rfl⟩

/-- **C31** (others are reported): looking up a name also reports every symbol whose name sorts
after it.  So the claim that exactly the symbols of the name are reported is false as soon as
there is a greater name. -/
theorem C31_reports_others (syms : List Ksym) (name : Bytes) (ty : Elf.SymType) (hty : ty ≠ .variable)
    (k : Ksym) (hk : k ∈ syms) (hn : k.name = name) (k' : Ksym) (hk' : k' ∈ syms)
    (hlt : nameKey name < nameKey k'.name) : ∃ r ∈ ksymFindAddr syms name ty, Reports k' r ∧ r.info.name ≠ name := by
  rcases findAddr_reported syms name ty hty with ⟨h1, h2⟩ | ⟨idx, e, h1, h2, h3, h4⟩
  · have := h2 k hk
    rw [hn] at this
    exact absurd this (lt_irrefl _)
  · rw [h4]
    obtain ⟨i, hi, rfl⟩ := List.mem_map.mp (mem_byName.mpr hk')
    obtain ⟨j, hj⟩ := List.mem_iff_getElem?.mp hi
    have hij : idx ≤ j := by
      by_contra hc
      have := List.pairwise_iff_getElem.mp (ksymByNameIdx_sorted syms) j idx
        (List.getElem?_eq_some_iff.mp hj).1 (List.getElem?_eq_some_iff.mp h2).1 (by omega)
      rw [(List.getElem?_eq_some_iff.mp hj).2, (List.getElem?_eq_some_iff.mp h2).2] at this
      exact absurd (lt_of_lt_of_le hlt (le_trans this h3.1)) (lt_irrefl _)
    refine ⟨_, List.mem_map.mpr ⟨i, ?_, rfl⟩, (reports_iff ..).mpr rfl, ?_⟩
    · rw [List.mem_iff_getElem?]
      exact ⟨j - idx, by rw [List.getElem?_drop, show idx + (j - idx) = j by omega, hj]⟩
    · intro hc
      have h5 := ((reports_iff (ksymAt syms i) _).mpr rfl).1
      rw [hc] at h5
      rw [← h5] at hlt
      exact absurd hlt (lt_irrefl _)

/-- **C31** (absent names): looking up a name that no symbol has reports other symbols whenever
there is a smaller name. -/
theorem C31_reports_absent (syms : List Ksym) (name : Bytes) (ty : Elf.SymType) (hty : ty ≠ .variable)
    (hn : ∀ k ∈ syms, k.name ≠ name) (k : Ksym) (hk : k ∈ syms) (hlt : nameKey k.name < nameKey name) :
    ∃ r ∈ ksymFindAddr syms name ty, r.info.name ≠ name := by
  rcases findAddr_reported syms name ty hty with ⟨h1, h2⟩ | ⟨idx, e, h1, h2, h3, h4⟩
  · exact absurd (lt_trans hlt (h2 k hk)) (lt_irrefl _)
  · rw [h4]
    refine ⟨_, List.mem_map.mpr ⟨e, ?_, rfl⟩, ?_⟩
    · rw [List.mem_iff_getElem?]
      exact ⟨0, by rw [List.getElem?_drop]; simpa using h2⟩
    · have := hn (ksymAt syms e) (mem_byName.mp (List.mem_map.mpr ⟨e, List.mem_of_getElem? h2, rfl⟩))
      rw [← ((reports_iff (ksymAt syms e) _).mpr rfl).1] at this
      exact this

/-- **C31** (order): what is reported is in the order of names, and of addresses for symbols of
the same name. -/
theorem C31_order (syms : List Ksym) (name : Bytes) (ty : Elf.SymType) :
    (ksymFindAddr syms name ty).Pairwise (fun a b => nameKey a.info.name < nameKey b.info.name ∨
      (a.info.name = b.info.name ∧ a.info.addr ≤ b.info.addr)) := by
  by_cases hty : ty = .variable
  · subst hty; simp [ksymFindAddr]
  · rcases findAddr_reported syms name ty hty with ⟨h1, _⟩ | ⟨idx, e, h1, h2, h3, h4⟩
    · rw [h1]; exact List.Pairwise.nil
    · rw [h4, List.pairwise_map]
      refine List.Pairwise.sublist (List.drop_sublist _ _) ?_
      have := sortByKey_sorted (fun idx : Nat => toLex (nameKey (ksymAt syms idx).name,
        (ksymAt syms idx).addr)) (List.range syms.length)
      refine List.Pairwise.imp ?_ this
      intro a b hab
      rw [Prod.Lex.toLex_le_toLex] at hab
      have ra := (reports_iff (ksymAt syms a) _).mpr rfl
      have rb := (reports_iff (ksymAt syms b) _).mpr rfl
      rw [ra.1, rb.1, ra.2.1, rb.2.1]
      exact hab.imp id (fun h => ⟨nameKey_inj.mp h.1, h.2⟩)

theorem ksymForEachLoop_eq {S : Type} (f : S → KsymInfo → S × Bool) (syms : List Ksym) (s : S) :
    ksymForEachLoop f syms s = (Spec.Elf.feed f s (syms.map Ksym.toInfo)).1 := by
  induction syms generalizing s with
  | nil => rfl
  | cons a t ih =>
    rw [ksymForEachLoop, List.map_cons, Spec.Elf.feed]
    obtain ⟨s', b⟩ := f s a.toInfo
    cases b
    · exact ih s'
    · rfl

/-- **C45** (kallsyms): the callback is given all symbols, in the order of addresses, until it asks
to stop; there are no variables. -/
theorem C45_kallsyms {S : Type} (syms : List Ksym) (ty : Elf.SymType) (f : S → KsymInfo → S × Bool) (s : S) :
    (ty = .variable → ksymForEach syms ty f s = s) ∧
    (ty ≠ .variable → ∃ infos : List KsymInfo, List.Forall₂ Reports syms infos ∧
      ksymForEach syms ty f s = (Spec.Elf.feed f s infos).1) := by
  unfold ksymForEach
  constructor
  · rintro rfl; rfl
  · intro h
    rw [if_neg h]
    refine ⟨syms.map Ksym.toInfo, ?_, by rw [ksymForEachLoop_eq]⟩
    rw [List.forall₂_map_right_iff]
    exact List.forall₂_same.mpr (fun k _ => (reports_iff k _).mpr rfl)

/-! ### Concrete cases -/

def demoKallsyms : Bytes :=
  ascii ("0000000000000000 T zero\nffffffff81000030 t beta\nffffffff81000010 T alpha [mod]\n\n" ++
    "nothex T x\nffffffff81000030 t beta_alias\nffffffffc0000000 t bpf_prog_7cc47f24814abd09_f [bpf]\nshort T")

def demoKsyms : List Ksym :=
  [.kfunc 0xffffffff81000010 (ascii "alpha"), .kfunc 0xffffffff81000030 (ascii "beta"),
   .kfunc 0xffffffff81000030 (ascii "beta_alias"),
   .bpfProg ⟨0xffffffffc0000000, ascii "bpf_prog_7cc47f24814abd09_f", [0x7c, 0xc4, 0x7f, 0x24, 0x81, 0x4a, 0xbd, 0x09]⟩]

theorem demo_loaded : loadKallsyms true demoKallsyms = .ok demoKsyms := by decide +kernel

example : Loaded demoKsyms := ⟨true, _, demo_loaded⟩
example : findKsym demoKsyms 0xffffffff8100002f = .ok (.kfunc 0xffffffff81000010 (ascii "alpha")) := by decide +kernel
example : findKsym demoKsyms 0xffffffff81000030 = .ok (.kfunc 0xffffffff81000030 (ascii "beta")) := by decide +kernel
example : findKsym demoKsyms 0xffffffff8100000f = .error .unknownAddr := by decide +kernel
-- Asking for `beta` also reports the two symbols that sort after it, asking for `b` reports everything.
example : (ksymFindAddr demoKsyms (ascii "beta") .function).map (fun r => r.info.name) =
    [ascii "beta", ascii "beta_alias", ascii "bpf_prog_7cc47f24814abd09_f"] := by decide +kernel
example : (ksymFindAddr demoKsyms (ascii "b") .function).length = 4 := by decide +kernel
example : ksymForEach (S := List Nat) demoKsyms .undefined (fun s i => (i.info.addr :: s, decide (s.length = 1))) [] =
    [0xffffffff81000030, 0xffffffff81000010] := by decide +kernel

end Blazesym.Kernel
