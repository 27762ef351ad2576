import Verif.Dwarf.ResolverSpec
import Verif.Dwarf.Resolver
import Verif.Dwarf.InlineProps
import Verif.Dwarf.LinesProps
import Verif.Elf.NameSpec

/-! Lemmas about the DWARF resolver. -/

set_option autoImplicit false

namespace Blazesym.Dwarf
open Blazesym.Util Blazesym.Symbolize Blazesym.Spec.Dwarf

theorem clampU16_eq (n : Nat) : clampU16 n = min n 65535 := by
  unfold clampU16
  split <;> omega

theorem nameOrEmpty_ok {o : Option Bytes} {n : Bytes} : nameOrEmpty o = .ok n ↔
    n = o.getD [] ∧ ∀ b, o = some b → isUtf8 b = true := by
  cases o with
  | none =>
    simp only [nameOrEmpty, Option.getD_none, Except.ok.injEq, reduceCtorEq, false_imp_iff, implies_true, and_true]
    exact eq_comm
  | some b =>
    simp only [nameOrEmpty, toUtf8, Option.getD_some, Option.some.injEq, forall_eq']
    cases h : isUtf8 b
    · simp
    · simp only [if_true, Except.ok.injEq, and_true]; exact eq_comm

theorem callLocation_ok {σ : Sorter} {u : Unit} {main : MainUnit} (hm : u.header.unit = .ok main) {fn : Inlined}
    {loc : Option Location} (h : u.callLocation σ fn = .ok loc) :
    CallSite main fn (loc.map Location.codeInfo) := by
  unfold Unit.callLocation at h
  cases hf : fn.callFile with
  | none =>
    rw [hf] at h
    have := Except.ok.inj h
    subst this
    intro p i dir file _ h2
    rw [hf] at h2; cases h2
  | some i =>
    rw [hf] at h
    obtain ⟨lines, h1, h⟩ := bind_ok h
    unfold Unit.lines at h1
    rw [hm] at h1
    obtain ⟨m, h2, h1⟩ := bind_ok h1
    have := Except.ok.inj h2
    subst this
    cases hl : main.line with
    | none =>
      rw [hl] at h1
      have := Except.ok.inj h1
      subst this
      have := Except.ok.inj h
      subst this
      intro p i dir file h3
      rw [hl] at h3; cases h3
    | some p =>
      rw [hl] at h1
      obtain ⟨ls, h3, h1⟩ := bind_ok h1
      have := Except.ok.inj h1
      subst this
      obtain ⟨_, _, _, _, hfiles⟩ := parseLines_ok h3
      simp only at h
      cases hg : ls.files[i]? with
      | none =>
        rw [hg] at h
        have := Except.ok.inj h
        subst this
        intro p' i' dir file h4 h5 h6
        rw [hl] at h4
        rw [hf] at h5
        have := Option.some.inj h4
        subst this
        have := Option.some.inj h5
        subst this
        rw [(hfiles _ _ _).mpr h6] at hg
        cases hg
      | some df =>
        obtain ⟨dir, file⟩ := df
        rw [hg] at h
        have := Except.ok.inj h
        subst this
        exact ⟨p, i, dir, file, hl, hf, (hfiles _ _ _).mp hg, by simp [Location.codeInfo, clampU16_eq]⟩

/-- The locations after attributing them to the functions: that of the function itself and those of the
inlined functions. -/
def attributed (here : CodeInfo) : List (Option CodeInfo) → CodeInfo × List (Option CodeInfo)
  | [] => (here, [])
  | some c :: rest => (c, rest ++ [some here])
  | none :: rest => (here, rest ++ [none])

/-- The loop after the first function. -/
theorem inlineLoop_rest (σ : Sorter) (unit : Unit) (main : MainUnit) (hm : unit.header.unit = .ok main) :
    ∀ (stack : List Inlined) (direct : CodeInfo) (pre : List InlinedFn) (last : InlinedFn) (d' : CodeInfo)
      (out : List InlinedFn), inlineLoop σ unit stack direct (pre ++ [last]) = .ok (d', out) →
    d' = direct ∧ ∃ sites, List.Forall₂ (CallSite main) stack sites ∧
      out.map InlinedFn.name = pre.map InlinedFn.name ++ last.name :: stack.map (fun f => f.name.getD []) ∧
      out.map InlinedFn.codeInfo = pre.map InlinedFn.codeInfo ++ (sites ++ [last.codeInfo]) := by
  intro stack
  induction stack with
  | nil =>
    intro direct pre last d' out h
    simp only [inlineLoop, Except.ok.injEq, Prod.mk.injEq] at h
    exact ⟨h.1.symm, [], List.Forall₂.nil, by rw [← h.2]; simp, by rw [← h.2]; simp⟩
  | cons fn rest ih =>
    intro direct pre last d' out h
    rw [inlineLoop] at h
    obtain ⟨⟨name, loc⟩, h1, h⟩ := bind_ok h
    unfold Unit.inlinedItem at h1
    obtain ⟨n, h2, h1⟩ := bind_ok h1
    obtain ⟨l, h3, h1⟩ := bind_ok h1
    have h4 := Except.ok.inj h1
    simp only [Prod.mk.injEq] at h4
    obtain ⟨rfl, rfl⟩ := h4
    simp only [shift, List.getLast?_append, List.getLast?_singleton, Option.some_or, List.dropLast_concat] at h
    obtain ⟨e1, sites, e2, e3, e4⟩ := ih direct _ _ d' out h
    refine ⟨e1, l.map Location.codeInfo :: sites, List.Forall₂.cons (callLocation_ok hm h3) e2, ?_, ?_⟩
    · rw [e3, (nameOrEmpty_ok.mp h2).1]; simp
    · rw [e4]; simp

theorem inlineLoop_ok (σ : Sorter) (unit : Unit) (main : MainUnit) (hm : unit.header.unit = .ok main)
    (stack : List Inlined) (here d' : CodeInfo) (out : List InlinedFn)
    (h : inlineLoop σ unit stack here [] = .ok (d', out)) :
    ∃ sites, List.Forall₂ (CallSite main) stack sites ∧
      out.map InlinedFn.name = stack.map (fun f => f.name.getD []) ∧
      (d', out.map InlinedFn.codeInfo) = attributed here sites := by
  cases stack with
  | nil =>
    simp only [inlineLoop, Except.ok.injEq, Prod.mk.injEq] at h
    exact ⟨[], List.Forall₂.nil, by rw [← h.2]; rfl, by rw [← h.1, ← h.2]; rfl⟩
  | cons fn rest =>
    rw [inlineLoop] at h
    obtain ⟨⟨name, loc⟩, h1, h⟩ := bind_ok h
    unfold Unit.inlinedItem at h1
    obtain ⟨n, h2, h1⟩ := bind_ok h1
    obtain ⟨l, h3, h1⟩ := bind_ok h1
    have h4 := Except.ok.inj h1
    simp only [Prod.mk.injEq] at h4
    obtain ⟨rfl, rfl⟩ := h4
    have hc := callLocation_ok hm h3
    cases hl : l.map Location.codeInfo with
    | none =>
      simp only [hl, shift, List.getLast?_nil] at h
      obtain ⟨e1, sites, e2, e3, e4⟩ := inlineLoop_rest σ unit main hm rest _ [] _ d' out h
      rw [hl] at hc
      refine ⟨none :: sites, List.Forall₂.cons hc e2, ?_, ?_⟩
      · rw [e3, (nameOrEmpty_ok.mp h2).1]; simp
      · rw [e1, e4]; simp [attributed]
    | some ci =>
      simp only [hl, shift, List.getLast?_nil] at h
      obtain ⟨e1, sites, e2, e3, e4⟩ := inlineLoop_rest σ unit main hm rest _ [] _ d' out h
      rw [hl] at hc
      refine ⟨some ci :: sites, List.Forall₂.cons hc e2, ?_, ?_⟩
      · rw [e3, (nameOrEmpty_ok.mp h2).1]; simp
      · rw [e1, e4]; simp [attributed]

/-- What `find_sym` reports for a function of the DWARF data. -/
theorem findSym_function {σ : Sorter} {r : Resolver} {addr : Nat} {opts : FindSymOpts} {f : Function}
    {unit : Unit} (hf : r.units.findFunction σ addr = .ok (some (f, unit))) {res : Except Reason ResolvedSym}
    (h : r.findSym σ addr opts = .ok res) :
    ∃ sym size lang, res = .ok sym ∧ rangeSize f.range = .ok size ∧ unit.language = .ok lang ∧
      (∀ b, f.name = some b → isUtf8 b = true) ∧
      r.units.fillCodeInfo σ
        { name := f.name.getD [], module := r.module, addr := (f.range.map Range.start).getD 0, size,
          lang := srcLang lang, codeInfo := none, inlined := [] } addr opts (some (f, unit)) = .ok sym := by
  unfold Resolver.findSym at h
  rw [hf] at h
  obtain ⟨_, h1, h⟩ := bind_ok h
  have := Except.ok.inj h1
  subst this
  simp only at h
  obtain ⟨name, h2, h⟩ := bind_ok h
  obtain ⟨size, h3, h⟩ := bind_ok h
  obtain ⟨lang, hl, h⟩ := bind_ok h
  obtain ⟨sym, h4, h⟩ := bind_ok h
  obtain ⟨n1, n2⟩ := nameOrEmpty_ok.mp h2
  rw [n1] at h4
  exact ⟨sym, size, lang, (Except.ok.inj h).symm, h3, hl, n2, h4⟩

/-- Nothing but the source code information is filled in. -/
theorem fillCodeInfo_keeps {σ : Sorter} {u : Units} {sym sym' : ResolvedSym} {addr : Nat} {opts : FindSymOpts}
    {data : Option (Function × Unit)} (h : u.fillCodeInfo σ sym addr opts data = .ok sym') :
    sym'.name = sym.name ∧ sym'.module = sym.module ∧ sym'.addr = sym.addr ∧ sym'.size = sym.size ∧
      sym'.lang = sym.lang := by
  unfold Units.fillCodeInfo at h
  split at h
  · have := Except.ok.inj h
    subst this; exact ⟨rfl, rfl, rfl, rfl, rfl⟩
  · obtain ⟨loc, _, h⟩ := bind_ok h
    cases loc with
    | none =>
      have := Except.ok.inj h
      subst this; exact ⟨rfl, rfl, rfl, rfl, rfl⟩
    | some loc =>
      simp only at h
      split at h
      · cases data with
        | none =>
          have := Except.ok.inj h
          subst this; exact ⟨rfl, rfl, rfl, rfl, rfl⟩
        | some d =>
          obtain ⟨stack, _, h⟩ := bind_ok h
          obtain ⟨⟨d', out⟩, _, h⟩ := bind_ok h
          have := Except.ok.inj h
          subst this; exact ⟨rfl, rfl, rfl, rfl, rfl⟩
      · have := Except.ok.inj h
        subst this; exact ⟨rfl, rfl, rfl, rfl, rfl⟩

theorem codeInfo_eq (l : Location) : l.codeInfo =
    { dir := some l.dir, file := l.file, line := l.line, column := l.column.map (min · 65535) } := by
  simp only [Location.codeInfo]
  congr 1
  cases l.column <;> simp [clampU16_eq]

end Blazesym.Dwarf
