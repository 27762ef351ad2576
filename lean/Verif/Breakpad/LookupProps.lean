import Verif.Breakpad.LookupLemmas
import Verif.Util.PathProps

/-!
# C21, C22: looking up functions and lines in Breakpad symbol data

The data is that of a file that has been read (`Loaded`); C24 says what that is in terms of the
text of the file.
-/

set_option autoImplicit false

namespace Blazesym.Breakpad
open Blazesym.Util Blazesym.Spec Blazesym.Spec.Breakpad Blazesym.Symbolize

theorem codeInfo_ok {file : SymbolFile} {id line : Nat} {ci : CodeInfo}
    (h : file.codeInfo id line = .ok ci) : SiteIs file id line ci := by
  unfold SymbolFile.codeInfo SymbolFile.findSourceLocation at h
  cases hp : file.files.lookup id with
  | none => rw [hp] at h; cases h
  | some path =>
    rw [hp] at h
    simp only at h
    cases hq : splitLast path with
    | none => rw [hq] at h; cases h
    | some q =>
      obtain ⟨dir, name⟩ := q
      rw [hq] at h
      simp only [Except.ok.injEq] at h
      subst h
      obtain ⟨h1, h2, _⟩ := C55_split_last path dir name hq
      exact ⟨path, dir, hp, h1, h2, rfl, rfl, rfl⟩

theorem codeInfo_total (file : SymbolFile) (id line : Nat) :
    (KnownFile file id ∧ ∃ ci, file.codeInfo id line = .ok ci) ∨
    (¬ KnownFile file id ∧ file.codeInfo id line = .error .invalidInput) := by
  unfold SymbolFile.codeInfo SymbolFile.findSourceLocation
  cases hp : file.files.lookup id with
  | none =>
    right
    refine ⟨?_, rfl⟩
    rintro ⟨path, h, _⟩
    rw [hp] at h; cases h
  | some path =>
    simp only
    cases hq : splitLast path with
    | none =>
      right
      refine ⟨?_, rfl⟩
      rintro ⟨path', h, h'⟩
      rw [hp] at h
      cases h
      exact h' ((C55_split_none path).mp hq)
    | some q =>
      left
      refine ⟨⟨path, hp, ?_⟩, ⟨_, rfl⟩⟩
      intro hn
      rw [(C55_split_none path).mpr hn] at hq
      cases hq

/-! ### The lookups themselves -/

theorem findFunction_some {file : SymbolFile} (hl : Loaded file) {addr : Nat} {f : Function}
    (h : file.findFunction addr = .ok (some f)) : FunctionFor file addr f := by
  rw [findFunction_eq] at h
  exact coverLookup_some (loaded_functions hl) h

theorem findFunction_fits {file : SymbolFile} (hl : Loaded file) {addr : Nat}
    (ho : Fits (fun f => f.addr) (fun f => f.size) file.functions addr) :
    (∃ f, file.findFunction addr = .ok (some f)) ∨
    (file.findFunction addr = .ok none ∧ ¬ ∃ f, FunctionFor file addr f) := by
  rw [findFunction_eq]
  rcases coverLookup_ok (loaded_functions hl) ho with h | ⟨h1, h2⟩
  · exact Or.inl h
  · exact Or.inr ⟨h1, fun ⟨f, a, b, c⟩ => h2 f a c b⟩

theorem findLine_some {file : SymbolFile} (hl : Loaded file) {f : Function} (hf : f ∈ file.functions)
    {addr : Nat} {l : SourceLine} (h : f.findLine addr = .ok (some l)) : LineFor f addr l := by
  rw [findLine_eq] at h
  exact coverLookup_some (loaded_function hl hf).1 h

theorem findLine_fits {file : SymbolFile} (hl : Loaded file) {f : Function} (hf : f ∈ file.functions)
    {addr : Nat} (ho : Fits (fun l => l.addr) (fun l => l.size) f.lines addr) :
    (∃ l, f.findLine addr = .ok (some l)) ∨
    (f.findLine addr = .ok none ∧ ¬ ∃ l, LineFor f addr l) := by
  rw [findLine_eq]
  rcases coverLookup_ok (loaded_function hl hf).1 ho with h | ⟨h1, h2⟩
  · exact Or.inl h
  · exact Or.inr ⟨h1, fun ⟨f, a, b, c⟩ => h2 f a c b⟩

theorem inlinedLoop_keeps (file : SymbolFile) (l : List Inlinee) (d : CodeInfo) (i : List InlinedFn)
    {e : Err} (h : file.inlinedLoop l d i = .error e) : e = .invalidInput := by
  induction l generalizing d i with
  | nil => cases h
  | cons a l ih =>
    unfold SymbolFile.inlinedLoop at h
    split at h
    · rename_i hn
      unfold SymbolFile.findInlineeName at hn
      split at hn <;> cases hn
      cases h; rfl
    · split at h
      · rename_i hn
        rcases codeInfo_total file a.callFile a.callLine with ⟨_, ci, g⟩ | ⟨_, g⟩
        · rw [g] at hn; cases hn
        · rw [g] at hn; cases hn; cases h; rfl
      · split at h
        · exact ih _ _ h
        · exact ih _ _ h

/-- The code information leaves the rest of a symbol alone. -/
theorem fillCodeInfo_keeps {file : SymbolFile} {sym sym' : ResolvedSym} {addr : Nat} {opts : FindSymOpts}
    {f : Function} (h : file.fillCodeInfo sym addr opts f = .ok sym') :
    sym'.name = sym.name ∧ sym'.module = sym.module ∧ sym'.addr = sym.addr ∧ sym'.size = sym.size := by
  unfold SymbolFile.fillCodeInfo at h
  split at h
  · split at h
    · cases h
    · cases h; exact ⟨rfl, rfl, rfl, rfl⟩
    · split at h
      · cases h
      · split at h
        · cases h
        · cases h; exact ⟨rfl, rfl, rfl, rfl⟩
  · cases h; exact ⟨rfl, rfl, rfl, rfl⟩

theorem fillCodeInfo_err {file : SymbolFile} {sym : ResolvedSym} {addr : Nat} {opts : FindSymOpts}
    {f : Function} {e : Err} (h : file.fillCodeInfo sym addr opts f = .error e) :
    f.findLine addr = .error e ∨ e = .invalidInput := by
  unfold SymbolFile.fillCodeInfo at h
  split at h
  · split at h
    · rename_i hl; cases h; exact Or.inl hl
    · cases h
    · rename_i l hl
      right
      split at h
      · rename_i hc
        cases h
        rcases codeInfo_total file l.file l.line with ⟨_, ci, g⟩ | ⟨_, g⟩
        · rw [g] at hc; cases hc
        · rw [g] at hc; cases hc; rfl
      · split at h
        · rename_i hi
          cases h
          split at hi
          · exact inlinedLoop_keeps _ _ _ _ hi
          · cases hi
        · cases h
  · cases h

/-! ### C21 -/

/-- **C21** (soundness): the function reported for an address contains the address, no function
starts between its start and the address, and the symbol has its name, address and size. -/
theorem C21_sound {file : SymbolFile} (hl : Loaded file) {addr : Nat} {opts : FindSymOpts}
    {sym : ResolvedSym} (h : file.findSym addr opts = .ok (.ok sym)) :
    ∃ f, FunctionFor file addr f ∧
      sym.name = f.name ∧ sym.addr = f.addr ∧ sym.size = some f.size ∧ sym.module = file.module := by
  unfold SymbolFile.findSym at h
  split at h
  · cases h
  · cases h
  · rename_i f hf
    split at h
    · cases h
    · rename_i s hs
      have h' : s = sym := by simpa using h
      subst h'
      obtain ⟨h1, h2, h3, h4⟩ := fillCodeInfo_keeps hs
      exact ⟨f, findFunction_some hl hf, h1, h3, h4, h2⟩

/-- **C21** (partial): as long as no function at or below the address reaches the end of the
address space, an address without a symbol is one that no function with the nearest start
contains; the reason tells whether there are any functions.  Missing: functions that reach the
end of the address space, see `C21_overflow_panics`. -/
theorem C21_no_symbol_partial {file : SymbolFile} (hl : Loaded file) {addr : Nat} {opts : FindSymOpts}
    (ho : Fits (fun f => f.addr) (fun f => f.size) file.functions addr) (r : Reason) :
    file.findSym addr opts = .ok (.error r) ↔
      (¬ ∃ f, FunctionFor file addr f) ∧
        (file.functions = [] ∧ r = .missingSyms ∨ file.functions ≠ [] ∧ r = .unknownAddr) := by
  unfold SymbolFile.findSym
  rcases findFunction_fits hl ho with ⟨f, hf⟩ | ⟨h1, h2⟩
  · rw [hf]
    simp only
    have := findFunction_some hl hf
    constructor
    · intro h
      split at h <;> simp at h
    · rintro ⟨h, _⟩
      exact absurd ⟨f, this⟩ h
  · rw [h1]
    simp only
    by_cases he : file.functions = []
    · simp only [he, if_true, Except.ok.injEq, Except.error.injEq, true_and, not_true, ne_eq,
        false_and, or_false, h2, not_false_eq_true]
      exact eq_comm
    · simp only [he, if_false, Except.ok.injEq, Except.error.injEq, false_and, ne_eq,
        not_false_eq_true, true_and, false_or, h2]
      exact eq_comm

/-- **C21** (partial): an address that a function with the nearest start contains has a symbol.
Without a request for source locations nothing can go wrong; with it, the only errors are
about file numbers and names that the file does not have. -/
theorem C21_found_partial {file : SymbolFile} (hl : Loaded file) {addr : Nat} (opts : FindSymOpts)
    (ho : Fits (fun f => f.addr) (fun f => f.size) file.functions addr)
    (hol : ∀ f ∈ file.functions, Fits (fun l => l.addr) (fun l => l.size) f.lines addr)
    (h : ∃ f, FunctionFor file addr f) :
    (∃ sym, file.findSym addr opts = .ok (.ok sym)) ∨
    (opts ≠ .basic ∧ file.findSym addr opts = .error .invalidInput) := by
  unfold SymbolFile.findSym
  rcases findFunction_fits hl ho with ⟨f, hf⟩ | ⟨_, h2⟩
  · rw [hf]
    simp only
    have hff := findFunction_some hl hf
    split
    · rename_i e he
      right
      constructor
      · rintro rfl
        unfold SymbolFile.fillCodeInfo FindSymOpts.wantsCodeInfo at he
        simp at he
      · rcases fillCodeInfo_err he with g | g
        · rcases findLine_fits hl hff.1 (hol f hff.1) with ⟨l, g'⟩ | ⟨g', _⟩ <;> (rw [g] at g'; cases g')
        · rw [g]
    · exact Or.inl ⟨_, rfl⟩
  · exact absurd h h2

/-- **C21** (several functions with the same start): of these, the smallest one that contains the
address is reported; but if there is no function with a lower start, and the address is not the
start itself, the largest one is reported. -/
theorem C21_same_start {file : SymbolFile} (hl : Loaded file) {addr : Nat} {f : Function}
    (ho : Fits (fun f => f.addr) (fun f => f.size) file.functions addr)
    (h : file.findFunction addr = .ok (some f)) :
    ((f.addr = addr ∨ ∃ g ∈ file.functions, g.addr < f.addr) →
      ∀ g ∈ file.functions, g.addr = f.addr → Covers g.addr g.size addr → f.size ≤ g.size) ∧
    (¬ (f.addr = addr ∨ ∃ g ∈ file.functions, g.addr < f.addr) →
      ∀ g ∈ file.functions, g.addr = f.addr → g.size ≤ f.size) := by
  rw [findFunction_eq] at h
  have hs := loaded_functions hl
  obtain ⟨h1, h2⟩ := coverLookup_which hs ho h
  constructor
  · intro hc g hg hgf hcov
    obtain ⟨pre, post, heq, hpre⟩ := h1 hc
    rw [heq] at hg hs
    rcases List.mem_append.mp hg with hg | hg
    · exact absurd hcov (hpre g hg hgf)
    · rcases List.mem_cons.mp hg with rfl | hg
      · exact le_refl _
      · have := (List.pairwise_cons.mp (List.pairwise_append.mp hs).2.1).1 g hg
        rw [pairKey_le] at this
        omega
  · intro hc g hg hgf
    obtain ⟨pre, post, heq, hpost⟩ := h2 hc
    rw [heq] at hg hs
    rcases List.mem_append.mp hg with hg | hg
    · have := (List.pairwise_append.mp hs).2.2 g hg f (List.mem_cons_self ..)
      rw [pairKey_le] at this
      omega
    · rcases List.mem_cons.mp hg with rfl | hg
      · exact le_refl _
      · have := hpost g hg
        omega

/-- **C21** (negation): a function that reaches the end of the address space makes the lookup of
every address that it is nearest to panic. -/
theorem C21_overflow_panics {file : SymbolFile} (hl : Loaded file) {addr : Nat} (opts : FindSymOpts)
    {f : Function} (hf : f ∈ file.functions) (honly : ∀ g ∈ file.functions, g.addr = f.addr → g = f)
    (hlast : IsLastStart (fun f => f.addr) file.functions addr f.addr) (hz : f.size ≠ 0)
    (hov : 2 ^ 64 ≤ f.addr + f.size) :
    file.findSym addr opts = .error .panic := by
  unfold SymbolFile.findSym
  rw [findFunction_eq, coverLookup_panic (loaded_functions hl) hf honly hlast hov (fun h => hz h.2)]

/-! ### C22 -/

/-- **C22** (soundness): the source location reported for a symbol without inlined functions is
that of a line record of its function that contains the address, no record starting between its
start and the address. -/
theorem C22_sound {file : SymbolFile} (hl : Loaded file) {addr : Nat} {sym : ResolvedSym}
    (h : file.findSym addr .codeInfo = .ok (.ok sym)) {ci : CodeInfo} (hci : sym.codeInfo = some ci) :
    sym.inlined = [] ∧ ∃ f l, FunctionFor file addr f ∧ LineFor f addr l ∧ sym.name = f.name ∧
      SiteIs file l.file l.line ci := by
  unfold SymbolFile.findSym at h
  split at h
  · cases h
  · cases h
  · rename_i f hf
    have hff := findFunction_some hl hf
    split at h
    · cases h
    · rename_i s hs
      have h' : s = sym := by simpa using h
      subst h'
      have hn := (fillCodeInfo_keeps hs).1
      unfold SymbolFile.fillCodeInfo FindSymOpts.wantsCodeInfo FindSymOpts.wantsInlined at hs
      simp only [if_true] at hs
      split at hs
      · cases hs
      · cases hs; cases hci
      · rename_i l hfl
        split at hs
        · cases hs
        · rename_i d hd
          simp only [Bool.false_eq_true, if_false, Except.ok.injEq] at hs
          subst hs
          simp only [Option.some.injEq] at hci
          subst hci
          exact ⟨rfl, f, l, hff, findLine_some hl hff.1 hfl, hn, codeInfo_ok hd⟩

/-- **C22** (partial): as long as no line record at or below the address reaches the end of the
address space, there is no source location exactly if no line record with the nearest start
contains the address.  Missing: records that reach the end of the address space (these panic, as
functions do), and records that contain the address although another starts nearer
(`C22_overlap_missed`). -/
theorem C22_no_location_partial {file : SymbolFile} (hl : Loaded file) {addr : Nat} {f : Function}
    (hf : file.findFunction addr = .ok (some f))
    (ho : Fits (fun l => l.addr) (fun l => l.size) f.lines addr) :
    (¬ (∃ l, LineFor f addr l) → ∃ sym, file.findSym addr .codeInfo = .ok (.ok sym) ∧
        sym.codeInfo = none ∧ sym.inlined = []) ∧
    ((∃ l, LineFor f addr l) → (∀ l ∈ f.lines, KnownFile file l.file) →
      ∃ sym ci, file.findSym addr .codeInfo = .ok (.ok sym) ∧ sym.codeInfo = some ci) ∧
    ((∃ l, LineFor f addr l) → (∀ l ∈ f.lines, ¬ KnownFile file l.file) →
      file.findSym addr .codeInfo = .error .invalidInput) := by
  have hff := findFunction_some hl hf
  unfold SymbolFile.findSym
  rw [hf]
  simp only [SymbolFile.fillCodeInfo, FindSymOpts.wantsCodeInfo, FindSymOpts.wantsInlined, if_true]
  rcases findLine_fits hl hff.1 ho with ⟨l, hfl⟩ | ⟨hfl, hno⟩
  · have hlf := findLine_some hl hff.1 hfl
    rw [hfl]
    simp only
    rcases codeInfo_total file l.file l.line with ⟨hk, ci, hci⟩ | ⟨hk, hci⟩
    · rw [hci]
      refine ⟨fun h => absurd ⟨l, hlf⟩ h, fun _ _ => ⟨_, ci, rfl, rfl⟩, fun _ h => absurd hk (h l hlf.1)⟩
    · rw [hci]
      exact ⟨fun h => absurd ⟨l, hlf⟩ h, fun _ h => absurd (h l hlf.1) hk, fun _ _ => rfl⟩
  · rw [hfl]
    refine ⟨fun _ => ⟨_, rfl, rfl, rfl⟩, fun h => absurd h hno, fun h => absurd h hno⟩

/-- **C22** (records that do not overlap): if no two line records share an address, the record
that contains the address is the one that is used. -/
theorem C22_disjoint {file : SymbolFile} (hl : Loaded file) {addr : Nat} {f : Function}
    (hf : f ∈ file.functions) (ho : Fits (fun l => l.addr) (fun l => l.size) f.lines addr)
    (hd : ∀ l ∈ f.lines, ∀ l' ∈ f.lines, l ≠ l' → l.addr + l.size ≤ l'.addr ∨ l'.addr + l'.size ≤ l.addr)
    {l : SourceLine} (hm : l ∈ f.lines) (hc : l.addr ≤ addr ∧ addr < l.addr + l.size)
    (hne : ∀ l' ∈ f.lines, l'.size ≠ 0) :
    f.findLine addr = .ok (some l) := by
  have hlf : LineFor f addr l := by
    refine ⟨hm, Or.inr hc, hc.1, ?_⟩
    intro l' hl' hle
    by_cases h : l = l'
    · rw [h]
    · have := hd l hm l' hl' h
      have := hne l' hl'
      dsimp only at hle ⊢
      omega
  rcases findLine_fits hl hf ho with ⟨l', h⟩ | ⟨_, hno⟩
  · have h' := findLine_some hl hf h
    have : l' = l := by
      by_contra hne'
      have hdd := hd l' h'.1 l hm hne'
      have hcov := h'.2.1
      have := hne l' h'.1
      unfold Covers at hcov
      omega
    rw [h, this]
  · exact absurd ⟨l, hlf⟩ hno

/-! ### Concrete cases -/

/-- The data of a text. -/
def load (s : String) : SymbolFile := (fromBytes (ascii s)).toOption.getD ⟨none, [], [], []⟩

theorem loaded_of {t : Bytes} (h : (fromBytes t).toOption.isSome = true) :
    Loaded ((fromBytes t).toOption.getD ⟨none, [], [], []⟩) := by
  cases hf : fromBytes t with
  | error e => rw [hf] at h; cases h
  | ok f => exact ⟨t, by rw [hf]; rfl⟩

def demo : String :=
  "FILE 0 d/a.c\nFILE 1 b.c\nFUNC 10 8 0 f\n10 4 3 0\n14 4 9 1\nFUNC 20 4 0 g1\nFUNC 20 8 0 g2\n20 2 1 7\n"

example : Loaded (load demo) := loaded_of (by decide +kernel)

example : (load demo).findSym 0x15 .codeInfo = .ok (.ok
    { name := ascii "f", module := none, addr := 0x10, size := some 8, lang := .unknown, inlined := [],
      codeInfo := some ⟨none, ascii "b.c", some 9, none⟩ }) := by decide +kernel
example : (load demo).findSym 0x11 .codeInfo = .ok (.ok
    { name := ascii "f", module := none, addr := 0x10, size := some 8, lang := .unknown, inlined := [],
      codeInfo := some ⟨some (ascii "d"), ascii "a.c", some 3, none⟩ }) := by decide +kernel
-- The smallest function that contains the address.
example : ((load demo).findFunction 0x21).map (Option.map Function.name) = .ok (some (ascii "g1")) := by
  decide +kernel
example : ((load demo).findFunction 0x25).map (Option.map Function.name) = .ok (some (ascii "g2")) := by
  decide +kernel
-- Its line record names a file that does not exist.
example : (load demo).findSym 0x24 .codeInfo = .ok (.ok
    { name := ascii "g2", module := none, addr := 0x20, size := some 8, lang := .unknown, inlined := [],
      codeInfo := none }) := by decide +kernel
example : (load (demo ++ "FUNC 30 4 0 h\n30 4 1 7\n")).findSym 0x31 .codeInfo = .error .invalidInput := by
  decide +kernel
example : (load demo).findSym 0x18 .codeInfo = .ok (.error .unknownAddr) := by decide +kernel
example : (load "FILE 0 a\n").findSym 0x18 .codeInfo = .ok (.error .missingSyms) := by decide +kernel

/-- The hypotheses of the partial theorems hold for this file and every address. -/
example (addr : Nat) : Fits (fun f => f.addr) (fun f => f.size) (load demo).functions addr ∧
    ∀ f ∈ (load demo).functions, Fits (fun l => l.addr) (fun l => l.size) f.lines addr := by
  have h1 : ∀ f ∈ (load demo).functions, f.addr + f.size < 2 ^ 64 := by decide +kernel
  have h2 : ∀ f ∈ (load demo).functions, ∀ l ∈ f.lines, l.addr + l.size < 2 ^ 64 := by decide +kernel
  exact ⟨fun f hf _ => h1 f hf, fun f hf l hl _ => h2 f hf l hl⟩

/-- **C21** (the exception in `C21_same_start`): of two functions with the same start, the
larger one is found if they are the first in the file, the smaller one otherwise. -/
theorem C21_same_start_differs :
    ((load "FUNC 20 4 0 g1\nFUNC 20 8 0 g2\n").findFunction 0x21).map (Option.map Function.name) =
      .ok (some (ascii "g2")) ∧
    ((load "FUNC 10 4 0 f\nFUNC 20 4 0 g1\nFUNC 20 8 0 g2\n").findFunction 0x21).map
      (Option.map Function.name) = .ok (some (ascii "g1")) := by
  decide +kernel

/-- A concrete case for `C21_overflow_panics`: an ordinary symbol lookup in a small file. -/
example : (load "FUNC fffffffffffffff0 10 0 f\n").findSym 0xfffffffffffffff8 .basic = .error .panic :=
  C21_overflow_panics (f := ⟨0xfffffffffffffff0, 0x10, 0, ascii "f", [], []⟩)
    (loaded_of (by decide +kernel)) _ (by decide +kernel)
    (by decide +kernel) ⟨by decide +kernel, by decide +kernel⟩ (by decide) (by decide)

/-- **C22** (negation): a line record that contains the address is not found if another one starts
nearer to the address, even if that one ends before it. -/
theorem C22_overlap_missed :
    (load "FILE 0 a\nFUNC 10 8 0 f\n10 8 1 0\n12 1 2 0\n").findSym 0x14 .codeInfo = .ok (.ok
      { name := ascii "f", module := none, addr := 0x10, size := some 8, lang := .unknown, codeInfo := none,
        inlined := [] }) := by
  decide +kernel

end Blazesym.Breakpad
