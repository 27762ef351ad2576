import Verif.Session.BreakpadAnswerSpec
import Verif.Session.AnswerProps
import Verif.Session.KernelDebugProps
import Verif.Breakpad.InlineProps

/-!
# C82: what is reported for an offset of a Breakpad symbol file, from its text
-/

set_option autoImplicit false

namespace Blazesym.Symbolize
open Blazesym.Util Blazesym.Breakpad Blazesym.Spec Blazesym.Spec.Breakpad Blazesym.Spec.Symbolize

variable {M K : Type}

theorem StableSorted.mem {α κ : Type} [LinearOrder κ] {key : α → κ} {l out : List α} (h : StableSorted key l out)
    (a : α) : a ∈ out ↔ a ∈ l := by
  have h1 : a ∈ out ↔ a ∈ out.filter (fun e => decide (key e = key a)) := by simp
  have h2 : a ∈ l ↔ a ∈ l.filter (fun e => decide (key e = key a)) := by simp
  rw [h1, h2, h.2 (key a)]

theorem forall₂_right {α β : Type} {R : α → β → Prop} {l : List α} {m : List β} (h : List.Forall₂ R l m) {a : α}
    (ha : a ∈ l) : ∃ b ∈ m, R a b := by
  induction h with
  | nil => cases ha
  | cons hab _ ih =>
    rcases List.mem_cons.mp ha with rfl | ha
    · exact ⟨_, List.mem_cons_self .., hab⟩
    · obtain ⟨b, hb, h⟩ := ih ha
      exact ⟨b, List.mem_cons_of_mem _ hb, h⟩

theorem forall₂_left {α β : Type} {R : α → β → Prop} {l : List α} {m : List β} (h : List.Forall₂ R l m) {b : β}
    (hb : b ∈ m) : ∃ a ∈ l, R a b := by
  obtain ⟨a, ha, h⟩ := forall₂_right h.flip hb
  exact ⟨a, ha, h⟩

section
variable {rs : List Record} {file : SymbolFile} (hd : Describes rs file)
include hd

theorem described_raw {f : Function} (hf : f ∈ file.functions) : ∃ raw ∈ functions rs, Sorted raw f := by
  obtain ⟨fs, h1, h2⟩ := hd.functions
  exact forall₂_left h1 ((StableSorted.mem h2 f).mp hf)

theorem described_sorted {raw : Function} (hf : raw ∈ functions rs) : ∃ f ∈ file.functions, Sorted raw f := by
  obtain ⟨fs, h1, h2⟩ := hd.functions
  obtain ⟨f, hf, h⟩ := forall₂_right h1 hf
  exact ⟨f, (StableSorted.mem h2 f).mpr hf, h⟩

theorem described_empty : file.functions = [] ↔ functions rs = [] := by
  constructor
  · intro h
    rw [List.eq_nil_iff_forall_not_mem]
    intro raw hr
    obtain ⟨f, hf, _⟩ := described_sorted hd hr
    rw [h] at hf
    cases hf
  · intro h
    rw [List.eq_nil_iff_forall_not_mem]
    intro f hf
    obtain ⟨raw, hr, _⟩ := described_raw hd hf
    rw [h] at hr
    cases hr

theorem recordFor_of {addr : Nat} {f raw : Function} (hr : raw ∈ functions rs) (hs : Sorted raw f)
    (h : FunctionFor file addr f) : RecordFor rs addr raw := by
  obtain ⟨_, h2, h3, h4⟩ := h
  refine ⟨hr, by rw [← hs.1, ← hs.2.1]; exact h2, by rw [← hs.1]; exact h3, ?_⟩
  intro r hr' hle
  obtain ⟨g, hg, hgs⟩ := described_sorted hd hr'
  simp only [← hs.1, ← hgs.1] at hle ⊢
  exact h4 g hg hle

theorem functionFor_of {addr : Nat} {raw : Function} (h : RecordFor rs addr raw) : ∃ f, FunctionFor file addr f := by
  obtain ⟨h1, h2, h3, h4⟩ := h
  obtain ⟨f, hf, hs⟩ := described_sorted hd h1
  refine ⟨f, hf, by rw [hs.1, hs.2.1]; exact h2, by rw [hs.1]; exact h3, ?_⟩
  intro g hg hle
  obtain ⟨r, hr, hgs⟩ := described_raw hd hg
  simp only [hs.1, hgs.1] at hle ⊢
  exact h4 r hr hle

theorem siteOf_of {id line : Nat} {ci : CodeInfo} (h : SiteIs file id line ci) : SiteOf rs id line ci := by
  obtain ⟨path, dir, h1, h2⟩ := h
  exact ⟨path, dir, by rw [← hd.files]; exact h1, h2⟩

theorem knownFile_iff {id : Nat} : KnownFile file id ↔ NamedFile rs id := by
  unfold KnownFile NamedFile
  simp only [hd.files]

theorem fits_functions {addr : Nat} (h : FitsAt rs addr) :
    Breakpad.Fits (fun f : Function => f.addr) (fun f => f.size) file.functions addr := by
  intro f hf hle
  obtain ⟨raw, hr, hs⟩ := described_raw hd hf
  have := h.functions raw hr
  simp only [hs.1, hs.2.1] at hle ⊢
  exact this hle

end

theorem sorted_lineFor {raw f : Function} (hs : Sorted raw f) (addr : Nat) (l : SourceLine) :
    LineFor f addr l ↔ LineFor raw addr l := by
  have := StableSorted.mem hs.2.2.2.2.1
  unfold LineFor IsLastStart
  simp only [this]

theorem sorted_fits {raw f : Function} (hs : Sorted raw f) {addr : Nat}
    (h : Breakpad.Fits (fun l : SourceLine => l.addr) (fun l => l.size) raw.lines addr) :
    Breakpad.Fits (fun l : SourceLine => l.addr) (fun l => l.size) f.lines addr :=
  fun l hl => h l ((StableSorted.mem hs.2.2.2.2.1 l).mp hl)

theorem sorted_length {raw f : Function} (hs : Sorted raw f) : f.inlinees.length = raw.inlinees.length := by
  have h := StableSorted.unique hs.2.2.2.2.2 (sortByKey_stable _ raw.inlinees)
  rw [h]
  exact (sortByKey_perm _ _).length_eq

theorem sorted_calls {file : SymbolFile} (hl : Loaded file) {raw f : Function} (hs : Sorted raw f)
    (hf : f ∈ file.functions) (hlen : raw.inlinees.length < 2 ^ 32) (addr : Nat) :
    CallsAt raw addr (f.findInlinees addr) := by
  have hm := StableSorted.mem hs.2.2.2.2.2
  have hlen' : f.inlinees.length < 2 ^ 32 := by rw [sorted_length hs]; exact hlen
  constructor
  · intro i e h
    have := C23_chain_sound hl hf hlen' addr h
    simp only [hm] at this
    exact this
  · intro ho
    have := C23_chain_complete_partial hl hf hlen' addr (by simpa only [hm] using ho.disjoint)
      (by simpa only [hm] using ho.nonempty) (by simpa only [hm] using ho.fits)
    simpa only [hm] using this

/-- What a lookup in the data of a symbol file yields, by its records. -/
theorem breakpad_lookup {rs : List Record} {file : SymbolFile} (hl : Loaded file) (hd : Describes rs file) {addr : Nat}
    (hfit : FitsAt rs addr) (opts : FindSymOpts) :
    (file.findSym addr opts = .ok (.error .missingSyms) ∧ functions rs = []) ∨
    (file.findSym addr opts = .ok (.error .unknownAddr) ∧ functions rs ≠ [] ∧ ¬ ∃ f, RecordFor rs addr f) ∨
    (∃ (raw : Function) (sym : ResolvedSym), file.findSym addr opts = .ok (.ok sym) ∧ RecordFor rs addr raw ∧
      sym.name = raw.name ∧ sym.addr = raw.addr ∧ sym.size = some raw.size ∧ sym.module = module? rs ∧
      sym.lang = .unknown ∧ LocatedIn id rs raw addr opts sym.codeInfo sym.inlined) ∨
    (opts ≠ .basic ∧ file.findSym addr opts = .error .invalidInput ∧ ¬ AllNamed rs) := by
  rcases findFunction_fits hl (fits_functions hd hfit) with ⟨f, hf⟩ | ⟨h1, h2⟩
  · obtain hff := findFunction_some hl hf
    obtain ⟨raw, hr, hs⟩ := described_raw hd hff.1
    have hrec := recordFor_of hd hr hs hff
    obtain ⟨sa, ss, _, sn, sl, si⟩ := id hs
    have hml := StableSorted.mem sl
    have hmi := StableSorted.mem si
    cases opts with
    | basic =>
      refine .inr (.inr (.inl ⟨raw, ⟨f.name, file.module, f.addr, some f.size, .unknown, none, []⟩, ?_, hrec, ?_⟩))
      · unfold SymbolFile.findSym SymbolFile.fillCodeInfo
        rw [hf]
        rfl
      · exact ⟨sn, sa, by rw [ss], hd.module, rfl, .off⟩
    | codeInfo =>
      rcases findLine_fits hl hff.1 (sorted_fits hs (hfit.lines raw hr)) with ⟨l, hline⟩ | ⟨hline, hno⟩
      · have hlf := (sorted_lineFor hs addr l).mp (findLine_some hl hff.1 hline)
        rcases codeInfo_total file l.file l.line with ⟨_, ci, g⟩ | ⟨hk, g⟩
        · refine .inr (.inr (.inl ⟨raw, ⟨f.name, file.module, f.addr, some f.size, .unknown, some ci, []⟩, ?_, hrec, ?_⟩))
          · unfold SymbolFile.findSym SymbolFile.fillCodeInfo
            simp only [hf, FindSymOpts.wantsCodeInfo, FindSymOpts.wantsInlined, if_true, hline, g, Bool.false_eq_true, if_false]
          · exact ⟨sn, sa, by rw [ss], hd.module, rfl, .line l ci hlf (siteOf_of hd (codeInfo_ok g))⟩
        · refine .inr (.inr (.inr ⟨by decide, ?_, ?_⟩))
          · unfold SymbolFile.findSym SymbolFile.fillCodeInfo
            simp only [hf, FindSymOpts.wantsCodeInfo, FindSymOpts.wantsInlined, if_true, hline, g]
          · intro ha
            exact hk ((knownFile_iff hd).mpr (ha.lines raw hr l hlf.1))
      · refine .inr (.inr (.inl ⟨raw, ⟨f.name, file.module, f.addr, some f.size, .unknown, none, []⟩, ?_, hrec, ?_⟩))
        · unfold SymbolFile.findSym SymbolFile.fillCodeInfo
          simp only [hf, FindSymOpts.wantsCodeInfo, FindSymOpts.wantsInlined, if_true, hline]
        · exact ⟨sn, sa, by rw [ss], hd.module, rfl, .none _ (by decide) (by simpa only [sorted_lineFor hs] using hno)⟩
    | codeInfoAndInlined =>
      rcases findLine_fits hl hff.1 (sorted_fits hs (hfit.lines raw hr)) with ⟨l, hline⟩ | ⟨hline, hno⟩
      · have hlf := (sorted_lineFor hs addr l).mp (findLine_some hl hff.1 hline)
        have hcalls := sorted_calls hl hs hff.1 (hfit.calls raw hr) addr
        by_cases hknown : KnownFile file l.file ∧ ∀ i ∈ f.findInlinees addr,
            KnownFile file i.callFile ∧ (file.inlineOrigins.lookup i.originId).isSome
        · obtain ⟨sym, sites, here, g1, g2, g3, g4, g5, g6, g7, g8, g9⟩ := C39_breakpad_inlined hl hf hline hknown
          refine .inr (.inr (.inl ⟨raw, sym, g1, hrec, by rw [g2, sn], by rw [g3, sa], by rw [g4, ss],
            by rw [g5, hd.module], ?_, ?_⟩))
          · unfold SymbolFile.findSym SymbolFile.fillCodeInfo at g1
            rw [hf] at g1
            simp only [FindSymOpts.wantsCodeInfo, FindSymOpts.wantsInlined, if_true, hline] at g1
            split at g1
            · cases g1
            · rename_i s hs'
              split at hs'
              · cases hs'
              · split at hs'
                · cases hs'
                · cases hs'
                  cases g1
                  rfl
          · refine .inlined l here _ sites _ _ _ hlf (siteOf_of hd g6) hcalls (g7.imp fun _ _ h => siteOf_of hd h)
              (g8.imp fun i n h => ?_) (List.map_id _).symm g9
            rw [← hd.origins]
            exact h
        · refine .inr (.inr (.inr ⟨by decide, C39_breakpad_unknown hf hline ?_, ?_⟩))
          · by_contra hc
            push Not at hc
            refine hknown ⟨hc.1, fun i hi => ⟨(hc.2 i hi).1, ?_⟩⟩
            exact Option.isSome_iff_ne_none.mpr (hc.2 i hi).2
          · intro ha
            refine hknown ⟨(knownFile_iff hd).mpr (ha.lines raw hr l hlf.1), fun i hi => ?_⟩
            obtain ⟨n, hn⟩ := List.mem_iff_getElem?.mp hi
            have := ha.calls raw hr i (hcalls.each n i hn).1
            rw [knownFile_iff hd, hd.origins]
            exact this
      · refine .inr (.inr (.inl ⟨raw, ⟨f.name, file.module, f.addr, some f.size, .unknown, none, []⟩, ?_, hrec, ?_⟩))
        · unfold SymbolFile.findSym SymbolFile.fillCodeInfo
          simp only [hf, FindSymOpts.wantsCodeInfo, FindSymOpts.wantsInlined, if_true, hline]
        · exact ⟨sn, sa, by rw [ss], hd.module, rfl, .none _ (by decide) (by simpa only [sorted_lineFor hs] using hno)⟩
  · by_cases he : functions rs = []
    · refine .inl ⟨?_, he⟩
      unfold SymbolFile.findSym
      rw [h1]
      simp only [(described_empty hd).mpr he, if_true]
    · refine .inr (.inl ⟨?_, he, ?_⟩)
      · unfold SymbolFile.findSym
        rw [h1]
        simp only
        rw [if_neg fun h => he ((described_empty hd).mp h)]
      · rintro ⟨raw, h⟩
        exact h2 (functionFor_of hd h)

theorem locatedIn_shown {shown : Bytes → Bytes} {rs : List Record} {f : Function} {addr : Nat} {opts : FindSymOpts}
    {ci : Option CodeInfo} {fns : List InlinedFn} (h : LocatedIn id rs f addr opts ci fns) :
    LocatedIn shown rs f addr opts ci (fns.map fun x => { name := shown x.name, codeInfo := x.codeInfo }) := by
  cases h with
  | off => exact .off
  | none _ h1 h2 => exact .none _ h1 h2
  | line l ci h1 h2 => exact .line l ci h1 h2
  | inlined l here calls sites names _ _ h1 h2 h3 h4 h5 h6 h7 =>
    refine .inlined l here calls sites names _ _ h1 h2 h3 h4 h5 ?_ ?_
    · rw [List.map_id] at h6
      rw [← h6, List.map_map, List.map_map]
      rfl
    · rw [List.map_map]
      exact h7

/-- **C82** (Breakpad; partial: functions and lines that reach the end of the address space, see C21_overflow_panics,
and overlapping records) For every offset, the symbol reported for a Breakpad symbol file is the function of the file
that the offset is in, with the source location and the inlined functions that the file has for it, or it is reported
that there is none; or, if the file refers to files or functions that it does not name, there may be an error. -/
theorem C82_breakpad_partial (cfg : Settings M K) (w : World M) (v : Versions M)
    (maps : Nat → Except Err (List (Except Err Maps.Entry))) {path data : Bytes}
    (hc : HasContents w (v.breakpad path) data) {rs : List Record} (hrs : IsSymbolFile rs data) (addr : Nat)
    (hfit : FitsAt rs addr) :
    (∃ out, symbolizeSingle (envAt cfg w v maps) (.breakpad path) (.fileOffset addr) = .ok out ∧
      InBreakpad (shownBy cfg .unknown) (findSymOpts cfg.codeInfo cfg.inlinedFns) rs addr out) ∨
    (symbolizeSingle (envAt cfg w v maps) (.breakpad path) (.fileOffset addr) = .error .invalidInput ∧
      findSymOpts cfg.codeInfo cfg.inlinedFns ≠ .basic ∧ ¬ AllNamed rs) := by
  obtain ⟨file, hf, hd⟩ := C24_parse_complete hrs
  have hr : (envAt cfg w v maps).breakpad path = .ok file.findSym := by
    obtain ⟨m, h1, h2⟩ := hc
    simp only [envAt, fileOf, h1, ofVersion, h2, hf]
  have key := fun out => C42_breakpad (envAt cfg w v maps) path file.findSym addr out hr
  rcases breakpad_lookup ⟨_, hf⟩ hd hfit (envAt cfg w v maps).opts with ⟨h, he⟩ | ⟨h, he, hno⟩ | ⟨raw, sym, h, hrec, hn, ha, hz, hm, hla, hloc⟩ | ⟨h1, h2, h3⟩
  · exact .inl ⟨_, (key _).mpr (.reason _ h), .missing he⟩
  · exact .inl ⟨_, (key _).mpr (.reason _ h), .unknown hno he⟩
  · have hle : sym.addr ≤ addr := by rw [ha]; exact hrec.2.2.1
    refine .inl ⟨_, (key _).mpr (.sym sym _ _ h hle rfl rfl), ?_⟩
    rw [zip_names, hn, ha, hz, hm, hla]
    exact .func raw _ _ hrec (locatedIn_shown hloc)
  · exact .inr ⟨(key _).mpr (.error _ h2), h1, h3⟩

/-- **C82** (Breakpad, files that name everything) If a symbol file has names for all files and functions that it refers
to, there is an answer for every offset. -/
theorem C82_breakpad_total_partial (cfg : Settings M K) (w : World M) (v : Versions M)
    (maps : Nat → Except Err (List (Except Err Maps.Entry))) {path data : Bytes}
    (hc : HasContents w (v.breakpad path) data) {rs : List Record} (hrs : IsSymbolFile rs data) (addr : Nat)
    (hfit : FitsAt rs addr) (hn : AllNamed rs) :
    ∃ out, symbolizeSingle (envAt cfg w v maps) (.breakpad path) (.fileOffset addr) = .ok out ∧
      InBreakpad (shownBy cfg .unknown) (findSymOpts cfg.codeInfo cfg.inlinedFns) rs addr out := by
  rcases C82_breakpad_partial cfg w v maps hc hrs addr hfit with h | ⟨_, _, h⟩
  · exact h
  · exact absurd hn h

/-- **C82** (Breakpad, other files; partial: lines of 65535 bytes or more, see C24_long_line_panics) A file that is not a
symbol file is refused for every offset. -/
theorem C82_breakpad_refused_partial (cfg : Settings M K) (w : World M) (v : Versions M)
    (maps : Nat → Except Err (List (Except Err Maps.Entry))) {path data : Bytes}
    (hc : HasContents w (v.breakpad path) data) (hs : ShortLines data) (hno : ¬ ∃ rs, IsSymbolFile rs data) (addr : Nat) :
    symbolizeSingle (envAt cfg w v maps) (.breakpad path) (.fileOffset addr) = .error .invalidInput := by
  have hr : (envAt cfg w v maps).breakpad path = .error .invalidInput := by
    obtain ⟨m, h1, h2⟩ := hc
    simp only [envAt, fileOf, h1, ofVersion, h2, C24_parse_rejects_partial hs hno]
  simp [symbolizeSingle, Input.map, symbolizeImpl, hr]

/-! ### Examples -/

def exBreakpad : World Nat :=
  { exHost false with
    disk := ⟨fun p => if p = ascii "/s.sym" then .ok 0 else if p = ascii "/t.sym" then .ok 1 else .error .notFound,
      fun m => if m = 0 then .ok (.ok sample) else if m = 1 then .ok (.ok (ascii "FUNC 10 g\n")) else .error .notFound⟩ }

example : HasContents exBreakpad ((present exBreakpad).breakpad (ascii "/s.sym")) sample := ⟨0, by decide, rfl⟩
example : HasContents exBreakpad ((present exBreakpad).breakpad (ascii "/t.sym")) (ascii "FUNC 10 g\n") := ⟨1, by decide, rfl⟩

/-- What is checked of a file that was read holds for its records. -/
theorem fits_of_described {rs : List Record} {file : SymbolFile} (hd : Describes rs file) {addr : Nat}
    (h1 : Breakpad.Fits (fun f : Function => f.addr) (fun f => f.size) file.functions addr)
    (h2 : ∀ f ∈ file.functions, Breakpad.Fits (fun l : SourceLine => l.addr) (fun l => l.size) f.lines addr)
    (h3 : ∀ f ∈ file.functions, f.inlinees.length < 2 ^ 32) : FitsAt rs addr := by
  constructor
  · intro raw hr hle
    obtain ⟨f, hf, hs⟩ := described_sorted hd hr
    have := h1 f hf
    simp only [hs.1, hs.2.1] at this
    exact this hle
  · intro raw hr l hl
    obtain ⟨f, hf, hs⟩ := described_sorted hd hr
    exact h2 f hf l ((StableSorted.mem hs.2.2.2.2.1 l).mpr hl)
  · intro raw hr
    obtain ⟨f, hf, hs⟩ := described_sorted hd hr
    rw [← sorted_length hs]
    exact h3 f hf

theorem named_of_described {rs : List Record} {file : SymbolFile} (hd : Describes rs file)
    (h1 : ∀ f ∈ file.functions, ∀ l ∈ f.lines, KnownFile file l.file)
    (h2 : ∀ f ∈ file.functions, ∀ i ∈ f.inlinees, KnownFile file i.callFile ∧
      (file.inlineOrigins.lookup i.originId).isSome) : AllNamed rs := by
  constructor
  · intro raw hr l hl
    obtain ⟨f, hf, hs⟩ := described_sorted hd hr
    exact (knownFile_iff hd).mp (h1 f hf l ((StableSorted.mem hs.2.2.2.2.1 l).mpr hl))
  · intro raw hr i hi
    obtain ⟨f, hf, hs⟩ := described_sorted hd hr
    have := h2 f hf i ((StableSorted.mem hs.2.2.2.2.2 i).mpr hi)
    rw [knownFile_iff hd, hd.origins] at this
    exact this

theorem sample_ok : ∃ rs, IsSymbolFile rs sample ∧ AllNamed rs ∧ ∀ addr, FitsAt rs addr := by
  obtain ⟨rs, h1, h2⟩ := C24_parse_sound (t := sample) (f :=
    { module := some (ascii "prog")
      files := [(1, ascii "b.c"), (0, ascii "a.c")]
      functions := [
        { addr := 0x10, size := 8, parameterSize := 4, name := ascii "f x"
          lines := [⟨0x10, 4, 0, 3⟩, ⟨0x14, 4, 1, 9⟩]
          inlinees := [⟨0, 0x12, 2, 1, 7, 0⟩, ⟨0, 0x16, 1, 1, 7, 0⟩] },
        { addr := 0x20, size := 8, parameterSize := 0, name := ascii "g", lines := [], inlinees := [] }]
      inlineOrigins := [(0, ascii "inl")] }) (by decide +kernel)
  have k0 : components (ascii "a.c") ≠ [] := by decide +kernel
  have k1 : components (ascii "b.c") ≠ [] := by decide +kernel
  refine ⟨rs, h1, named_of_described h2 ?_ ?_, fun addr => fits_of_described h2 ?_ ?_ ?_⟩
  · intro f hf l hl
    simp only [List.mem_cons, List.not_mem_nil, or_false] at hf
    rcases hf with rfl | rfl
    · simp only [List.mem_cons, List.not_mem_nil, or_false] at hl
      rcases hl with rfl | rfl
      · exact ⟨_, rfl, k0⟩
      · exact ⟨_, rfl, k1⟩
    · cases hl
  · intro f hf l hl
    simp only [List.mem_cons, List.not_mem_nil, or_false] at hf
    rcases hf with rfl | rfl
    · simp only [List.mem_cons, List.not_mem_nil, or_false] at hl
      rcases hl with rfl | rfl
      · exact ⟨⟨_, rfl, k1⟩, rfl⟩
      · exact ⟨⟨_, rfl, k1⟩, rfl⟩
    · cases hl
  · intro f hf _
    simp only [List.mem_cons, List.not_mem_nil, or_false] at hf
    rcases hf with rfl | rfl <;> decide
  · intro f hf l hl _
    simp only [List.mem_cons, List.not_mem_nil, or_false] at hf
    rcases hf with rfl | rfl
    · simp only [List.mem_cons, List.not_mem_nil, or_false] at hl
      rcases hl with rfl | rfl <;> decide
    · cases hl
  · intro f hf
    simp only [List.mem_cons, List.not_mem_nil, or_false] at hf
    rcases hf with rfl | rfl <;> decide

/-- What the theorem says about the example. -/
example (addr : Nat) : ∃ rs out, IsSymbolFile rs sample ∧
    symbolizeSingle (envAt exSettings exBreakpad (present exBreakpad) exBreakpad.maps) (.breakpad (ascii "/s.sym"))
      (.fileOffset addr) = .ok out ∧ InBreakpad (shownBy exSettings .unknown) .codeInfoAndInlined rs addr out := by
  obtain ⟨rs, h1, h2, h3⟩ := sample_ok
  obtain ⟨out, h4, h5⟩ := C82_breakpad_total_partial exSettings exBreakpad (present exBreakpad) exBreakpad.maps
    (path := ascii "/s.sym") ⟨0, by decide, rfl⟩ h1 addr (h3 addr) h2
  exact ⟨rs, out, h1, h4, h5⟩

set_option maxRecDepth 20000 in
/-- And what is reported: an inlined call, a line, no line, and no function; and a file that is refused. -/
example : [0x12, 0x14, 0x20, 0x30].map (fun addr => symbolizeSingle
      (envAt exSettings exBreakpad (present exBreakpad) exBreakpad.maps) (.breakpad (ascii "/s.sym")) (.fileOffset addr)) =
    [.ok (.sym ⟨ascii "f x", some (ascii "prog"), 0x10, 2, some 8, some ⟨none, ascii "b.c", some 7, none⟩,
       [⟨ascii "inl", some ⟨none, ascii "a.c", some 3, none⟩⟩]⟩),
     .ok (.sym ⟨ascii "f x", some (ascii "prog"), 0x10, 4, some 8, some ⟨none, ascii "b.c", some 9, none⟩, []⟩),
     .ok (.sym ⟨ascii "g", some (ascii "prog"), 0x20, 0, some 8, none, []⟩),
     .ok (.unknown .unknownAddr)] ∧
    symbolizeSingle (envAt exSettings exBreakpad (present exBreakpad) exBreakpad.maps) (.breakpad (ascii "/t.sym"))
      (.fileOffset 0x10) = .error .invalidInput := by
  decide +kernel

end Blazesym.Symbolize
