import Verif.Breakpad.InlineLemmas

/-! # C23, C39 (Breakpad): inlined functions in Breakpad symbol data -/

set_option autoImplicit false

namespace Blazesym.Breakpad
open Blazesym.Util Blazesym.Spec Blazesym.Spec.Breakpad Blazesym.Symbolize

/-- **C23** (soundness): the chain of inlined calls at an address has one record per depth, from
depth 0 on, each of which contains the address, and no record of the same depth starts between
its start and the address. -/
theorem C23_chain_sound {file : SymbolFile} (hl : Loaded file) {f : Function} (hf : f ∈ file.functions)
    (hlen : f.inlinees.length < 2 ^ 32) (addr : Nat) {i : Nat} {e : Inlinee}
    (h : (f.findInlinees addr)[i]? = some e) :
    e ∈ f.inlinees ∧ e.depth = i ∧ Contains e addr ∧
      ∀ e' ∈ f.inlinees, e'.depth = i → e'.addr ≤ addr → e'.addr ≤ e.addr := by
  have hs := (loaded_function hl hf).2
  obtain ⟨h1, h2, h3, _, h5⟩ := findInlineeAtDepth_some hs ((findInlinees_spec hs addr hlen).1 i e h)
  exact ⟨h1, h2, h3, h5⟩

/-- **C23** (partial): if the records of one depth do not overlap and none reaches the end of the
address space, the chain ends at the first depth at which no record contains the address.
Missing: overlapping records (`C23_overlap_missed`) and records that reach the end of the
address space (`C23_end_missed`). -/
theorem C23_chain_complete_partial {file : SymbolFile} (hl : Loaded file) {f : Function}
    (hf : f ∈ file.functions) (hlen : f.inlinees.length < 2 ^ 32) (addr : Nat)
    (hd : ∀ e ∈ f.inlinees, ∀ e' ∈ f.inlinees, e.depth = e'.depth → e ≠ e' →
      e.addr + e.size ≤ e'.addr ∨ e'.addr + e'.size ≤ e.addr)
    (hne : ∀ e ∈ f.inlinees, e.size ≠ 0) (hfit : ∀ e ∈ f.inlinees, e.addr + e.size < 2 ^ 64) :
    ¬ ∃ e ∈ f.inlinees, e.depth = (f.findInlinees addr).length ∧ Contains e addr := by
  rintro ⟨e, he, hde, hc⟩
  have hs := (loaded_function hl hf).2
  have hn := (findInlinees_spec hs addr hlen).2
  rw [← hde, findInlineeAtDepth_complete hs he hc (hfit e he)] at hn
  · cases hn
  · intro e' he' hdep hle hle'
    by_contra hne'
    have := hd e' he' e he hdep hne'
    have := hne e' he'
    unfold Contains at hc
    omega

/-- **C39** (Breakpad): for an address with a line record, the symbol is located at the call of the
first inlined function, each inlined function at the call of the next one, and the last one at
the line of the address; the inlined functions have the names that their records refer to. -/
theorem C39_breakpad_inlined {file : SymbolFile} (hl : Loaded file) {addr : Nat} {f : Function}
    {line : SourceLine} (hff : file.findFunction addr = .ok (some f))
    (hline : f.findLine addr = .ok (some line))
    (hknown : KnownFile file line.file ∧ ∀ i ∈ f.findInlinees addr,
      KnownFile file i.callFile ∧ (file.inlineOrigins.lookup i.originId).isSome) :
    ∃ sym sites here, file.findSym addr .codeInfoAndInlined = .ok (.ok sym) ∧
      sym.name = f.name ∧ sym.addr = f.addr ∧ sym.size = some f.size ∧ sym.module = file.module ∧
      SiteIs file line.file line.line here ∧
      List.Forall₂ (fun i ci => SiteIs file i.callFile i.callLine ci) (f.findInlinees addr) sites ∧
      List.Forall₂ (fun i n => file.inlineOrigins.lookup i.originId = some n)
        (f.findInlinees addr) (sym.inlined.map InlinedFn.name) ∧
      sym.codeInfo :: sym.inlined.map InlinedFn.codeInfo = (sites ++ [here]).map some := by
  have _ := hl
  obtain ⟨here, hhere⟩ : ∃ ci, file.codeInfo line.file line.line = .ok ci := by
    rcases codeInfo_total file line.file line.line with ⟨_, g⟩ | ⟨g, _⟩
    · exact g
    · exact absurd hknown.1 g
  obtain ⟨sites, hsites⟩ : ∃ sites : List CodeInfo, List.Forall₂
      (fun i ci => file.codeInfo i.callFile i.callLine = .ok ci) (f.findInlinees addr) sites := by
    have h := hknown.2
    generalize f.findInlinees addr = chain at h
    induction chain with
    | nil => exact ⟨[], .nil⟩
    | cons i t ih =>
      obtain ⟨s, hs⟩ := ih (fun x hx => h x (List.mem_cons_of_mem _ hx))
      rcases codeInfo_total file i.callFile i.callLine with ⟨_, ci, g⟩ | ⟨g, _⟩
      · exact ⟨ci :: s, .cons g hs⟩
      · exact absurd (h i (List.mem_cons_self ..)).1 g
  obtain ⟨names, hnames⟩ : ∃ names : List Bytes, List.Forall₂
      (fun i n => file.inlineOrigins.lookup i.originId = some n) (f.findInlinees addr) names := by
    have h := hknown.2
    generalize f.findInlinees addr = chain at h
    clear hsites
    induction chain with
    | nil => exact ⟨[], .nil⟩
    | cons i t ih =>
      obtain ⟨s, hs⟩ := ih (fun x hx => h x (List.mem_cons_of_mem _ hx))
      obtain ⟨n, hn⟩ := Option.isSome_iff_exists.mp (h i (List.mem_cons_self ..)).2
      exact ⟨n :: s, .cons hn hs⟩
  have hnames' : List.Forall₂ (fun i n => file.findInlineeName i.originId = .ok n)
      (f.findInlinees addr) names := by
    refine hnames.imp ?_
    intro i n h
    unfold SymbolFile.findInlineeName
    rw [h]
  obtain ⟨d, inl, h1, h2, h3⟩ := inlinedLoop_eq file _ hnames' hsites here [] [] here rfl
  refine ⟨{ name := f.name, module := file.module, addr := f.addr, size := some f.size,
            lang := .unknown, codeInfo := some d, inlined := inl }, sites, here, ?_, rfl, rfl, rfl, rfl, codeInfo_ok hhere,
          hsites.imp (fun _ _ h => codeInfo_ok h), ?_, by simpa using h3⟩
  · unfold SymbolFile.findSym SymbolFile.fillCodeInfo
    rw [hff]
    simp only [FindSymOpts.wantsCodeInfo, FindSymOpts.wantsInlined, if_true]
    rw [hline]
    simp only
    rw [hhere]
    simp only
    rw [h1]
  · rw [List.map_nil, List.nil_append] at h2
    rw [h2]
    exact hnames

/-- **C39** (Breakpad, unknown references): a line or inlined call at the address that refers to a
file or name that the symbol file does not define makes symbolization with inlined functions
fail. -/
theorem C39_breakpad_unknown {file : SymbolFile} {addr : Nat} {f : Function}
    {line : SourceLine} (hff : file.findFunction addr = .ok (some f))
    (hline : f.findLine addr = .ok (some line))
    (hun : ¬ KnownFile file line.file ∨ ∃ i ∈ f.findInlinees addr,
      ¬ KnownFile file i.callFile ∨ file.inlineOrigins.lookup i.originId = none) :
    file.findSym addr .codeInfoAndInlined = .error .invalidInput := by
  unfold SymbolFile.findSym SymbolFile.fillCodeInfo
  rw [hff]
  simp only [FindSymOpts.wantsCodeInfo, FindSymOpts.wantsInlined, if_true]
  rw [hline]
  simp only
  rcases codeInfo_total file line.file line.line with ⟨hk, ci, g⟩ | ⟨_, g⟩
  · rw [g]
    simp only
    have hun' := hun.resolve_left (fun h => h hk)
    have key : ∀ (chain : List Inlinee) (d : CodeInfo) (inl : List InlinedFn),
        (∃ i ∈ chain, ¬ KnownFile file i.callFile ∨ file.inlineOrigins.lookup i.originId = none) →
        file.inlinedLoop chain d inl = .error .invalidInput := by
      intro chain
      induction chain with
      | nil => rintro _ _ ⟨i, hi, _⟩; simp at hi
      | cons a t ih =>
        intro d inl h
        unfold SymbolFile.inlinedLoop SymbolFile.findInlineeName
        cases ho : file.inlineOrigins.lookup a.originId with
        | none => rfl
        | some n =>
          simp only
          rcases codeInfo_total file a.callFile a.callLine with ⟨hk, ci, g⟩ | ⟨_, g⟩
          · rw [g]
            simp only
            have ht : ∃ i ∈ t, ¬ KnownFile file i.callFile ∨ file.inlineOrigins.lookup i.originId = none := by
              obtain ⟨i, hi, h⟩ := h
              rcases List.mem_cons.mp hi with rfl | hi
              · rcases h with h | h
                · exact absurd hk h
                · rw [ho] at h; cases h
              · exact ⟨i, hi, h⟩
            split
            · exact ih _ _ ht
            · exact ih _ _ ht
          · rw [g]
    rw [key _ _ _ hun']
  · rw [g]

/-! ### Concrete cases -/

def inl : String :=
  "FILE 0 d/a.c\nFILE 1 b.c\nINLINE_ORIGIN 0 i0\nINLINE_ORIGIN 1 i1\nFUNC 10 20 0 f\nINLINE 0 7 0 0 12 8 20 4\nINLINE 1 8 1 1 14 2\n10 20 3 0\n"

example : Loaded (load inl) := loaded_of (by decide +kernel)

-- Two inlined functions, one, none.
example : (load inl).findSym 0x15 .codeInfoAndInlined = .ok (.ok
    { name := ascii "f", module := none, addr := 0x10, size := some 0x20,
      lang := .unknown, codeInfo := some ⟨some (ascii "d"), ascii "a.c", some 7, none⟩,
      inlined := [⟨ascii "i0", some ⟨none, ascii "b.c", some 8, none⟩⟩,
        ⟨ascii "i1", some ⟨some (ascii "d"), ascii "a.c", some 3, none⟩⟩] }) := by decide +kernel
example : (load inl).findSym 0x23 .codeInfoAndInlined = .ok (.ok
    { name := ascii "f", module := none, addr := 0x10, size := some 0x20,
      lang := .unknown, codeInfo := some ⟨some (ascii "d"), ascii "a.c", some 7, none⟩,
      inlined := [⟨ascii "i0", some ⟨some (ascii "d"), ascii "a.c", some 3, none⟩⟩] }) := by decide +kernel
example : (load inl).findSym 0x24 .codeInfoAndInlined = .ok (.ok
    { name := ascii "f", module := none, addr := 0x10, size := some 0x20,
      lang := .unknown, codeInfo := some ⟨some (ascii "d"), ascii "a.c", some 3, none⟩, inlined := [] }) := by decide +kernel

-- The hypotheses of the theorems are met.
example : ∀ f ∈ (load inl).functions, f.inlinees.length < 2 ^ 32 ∧
    (∀ e ∈ f.inlinees, ∀ e' ∈ f.inlinees, e.depth = e'.depth → e ≠ e' →
      e.addr + e.size ≤ e'.addr ∨ e'.addr + e'.size ≤ e.addr) ∧
    (∀ e ∈ f.inlinees, e.size ≠ 0) ∧ (∀ e ∈ f.inlinees, e.addr + e.size < 2 ^ 64) ∧
    (f.findInlinees 0x15).length = 2 := by decide +kernel

example : (load (inl ++ "INLINE 2 8 9 1 14 2\n")).findSym 0x15 .codeInfoAndInlined =
    .error .invalidInput := by decide +kernel

/-- **C23** (negation): an inlined call that contains the address is missed if another of the same
depth starts nearer, even if that one ends before the address. -/
theorem C23_overlap_missed :
    ∃ f ∈ (load "FUNC 10 20 0 f\nINLINE 0 7 0 0 12 8\nINLINE 0 8 0 0 13 1\n").functions,
      (∃ e ∈ f.inlinees, e.depth = 0 ∧ Contains e 0x15) ∧ f.findInlinees 0x15 = [] := by
  refine ⟨⟨0x10, 0x20, 0, ascii "f", [], [⟨0, 0x12, 8, 0, 7, 0⟩, ⟨0, 0x13, 1, 0, 8, 0⟩]⟩,
    by decide +kernel, ⟨⟨0, 0x12, 8, 0, 7, 0⟩, by decide, rfl, ?_⟩, by decide +kernel⟩
  unfold Contains; decide

/-- **C23** (negation): an inlined call that reaches the end of the address space is never found. -/
theorem C23_end_missed {file : SymbolFile} (hl : Loaded file) {f : Function} (hf : f ∈ file.functions)
    (hlen : f.inlinees.length < 2 ^ 32) (addr : Nat) {e : Inlinee} (he : 2 ^ 64 ≤ e.addr + e.size) :
    e ∉ f.findInlinees addr := by
  intro hm
  have hs := (loaded_function hl hf).2
  obtain ⟨i, hi⟩ := List.mem_iff_getElem?.mp hm
  have := (findInlineeAtDepth_some hs ((findInlinees_spec hs addr hlen).1 i e hi)).2.2.2.1
  omega

example : ∃ f ∈ (load "FUNC fffffffffffffff0 8 0 f\nINLINE 0 7 0 0 fffffffffffffff0 10\n").functions,
    ∃ e ∈ f.inlinees, 2 ^ 64 ≤ e.addr + e.size ∧ Contains e 0xfffffffffffffff4 := by
  refine ⟨⟨0xfffffffffffffff0, 8, 0, ascii "f", [], [⟨0, 0xfffffffffffffff0, 0x10, 0, 7, 0⟩]⟩,
    by decide +kernel, ⟨0, 0xfffffffffffffff0, 0x10, 0, 7, 0⟩, by decide, by decide, ?_⟩
  unfold Contains; decide

end Blazesym.Breakpad
