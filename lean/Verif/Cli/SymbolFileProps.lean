import Verif.Cli.FileProps
import Verif.Session.BreakpadAnswerProps
import Verif.Session.GsymAnswerProps

/-! Property theorems C81 (what the command line tool prints for addresses, by the contents of Breakpad and GSYM files). -/

set_option autoImplicit false

namespace Blazesym.Cli
open Blazesym.Util Blazesym.Spec Blazesym.Spec.Cli Blazesym.Spec.Symbolize
open Blazesym.Symbolize (Symbolized Input Source State Settings KernelCache World symbolize symbolizeSingle Folded Env)

variable {M : Type} [DecidableEq M]

/-- Symbol files may have any number of names. -/
theorem oneName_symbols (cfg : Settings M (KernelCache M)) (w : World M) (src : Source)
    (h : (∃ path, src = .breakpad path) ∨ ∃ path, src = .gsymFile path) : OneName cfg w src := by
  refine ⟨⟨w.disk.contents, fun _ => [], fun _ => .error .unsupported, fun _ _ _ _ => .error .unsupported,
    .error .unsupported⟩, rfl, ?_⟩
  intro l hl
  rcases h with ⟨path, rfl⟩ | ⟨path, rfl⟩ <;> cases hl <;> trivial

/-- **C81** (Breakpad symbol files; partial: see C82_breakpad_partial) The tool prints, for every address, the function
of the file that it is in, with the source location and the inlined functions, or that there is none; if the file refers
to files or functions that it does not name, this may also be printed for other addresses.  For files that name everything
the tool succeeds. -/
theorem C81_breakpad_partial (p : Platform) (w : World M) (path : Bytes) (addrs : List Nat)
    (hlen : ∀ m data, w.disk.contents m = .ok (.ok data) → data.length < 2 ^ 63) {data : Bytes}
    (hc : HasContents w (w.disk.stat path) data) {rs : List Breakpad.Record} (hrs : Breakpad.IsSymbolFile rs data)
    (hfit : ∀ a ∈ addrs, FitsAt rs a)
    (hplain : ∀ a ∈ addrs, ∀ out,
      ((State.new (settings p Inspect.defaultDebugDirs)).symbolizeSingle
        (settings p Inspect.defaultDebugDirs) w (.breakpad path) (.fileOffset a)).1 = .ok out →
      PlainAnswer p.display out) (ha : ∀ a ∈ addrs, a < 2 ^ 64) :
    ((runSymbolize p w (.breakpad path addrs)).result = .ok () →
      Tells p.display (fun a out =>
        InBreakpad (Symbolize.shownName p.demangler true .unknown) .codeInfoAndInlined rs a out ∨
          out = .unknown .ignoredError ∧ ¬ AllNamed rs) addrs (runSymbolize p w (.breakpad path addrs)).stdout) ∧
    (AllNamed rs → addrs ≠ [] → (runSymbolize p w (.breakpad path addrs)).result = .ok ()) := by
  have hask : Asks (.breakpad path addrs) (.breakpad path) (Kind.fileOffset.of addrs) none := .breakpad path addrs
  let cfg : Settings M (KernelCache M) := settings p Inspect.defaultDebugDirs
  have hans := answers_of_oneName (cfg := cfg) rfl rfl hlen (by intro ks h; cases h)
    (oneName_symbols cfg w (.breakpad path) (.inl ⟨path, rfl⟩))
  have key := fun (a : Nat) (hm : a ∈ addrs) =>
    Symbolize.C82_breakpad_partial cfg w (present w) w.maps (path := path) hc hrs a (hfit a hm)
  have hright : ∀ a ∈ addrs, ∀ out, symbolizeSingle (envAt cfg w (present w) w.maps) (.breakpad path)
      (Kind.fileOffset.of a) = .ok out →
        InBreakpad (Symbolize.shownName p.demangler true .unknown) .codeInfoAndInlined rs a out := by
    intro a hm out h
    rcases key a hm with ⟨out', h1, h2⟩ | ⟨h1, _⟩
    · have := h.symm.trans h1
      cases this
      exact h2
    · have := h.symm.trans h1
      cases this
  constructor
  · intro hr
    have hplain' : ∀ a ∈ addrs, ∀ out, symbolizeSingle (envAt cfg w (present w) w.maps) (.breakpad path)
        (Kind.fileOffset.of a) = .ok out → PlainAnswer p.display out :=
      fun a hm out h => hplain a hm out (by rw [hans.2]; exact h)
    have ht := run_tells (cmd := .breakpad path addrs) (dirs := none) hask hans
      (right := fun a out => (InBreakpad (Symbolize.shownName p.demangler true .unknown) .codeInfoAndInlined rs a out ∨
          out = .unknown .ignoredError ∧ ¬ AllNamed rs) ∧ PlainAnswer p.display out)
      (fun a hm out h => ⟨.inl (hright a hm out h), hplain' a hm out h⟩) ?_ ha (fun a _ out h => h.2) hr
    · obtain ⟨outs, h1, h2⟩ := ht
      exact ⟨outs, h1.imp (fun _ _ h => h.1), h2⟩
    · intro outs ho
      have := Symbolize.C43_batch _ _ .fileOffset addrs outs (by intro q h; cases h) ho
      rw [List.forall₂_iff_get] at this ⊢
      refine ⟨this.1, fun i hi hi' => ?_⟩
      rcases this.2 i hi hi' with h' | ⟨⟨e, _, h'⟩, h''⟩
      · exact ⟨.inl (hright _ (List.get_mem _ _) _ h'), hplain' _ (List.get_mem _ _) _ h'⟩
      · rcases key _ (List.get_mem addrs ⟨i, hi⟩) with ⟨out', h1, _⟩ | ⟨_, _, h2⟩
        · have := h'.symm.trans h1
          cases this
        · exact ⟨.inr ⟨h'', h2⟩, by rw [h'']; trivial⟩
  · intro hn hne
    have hs : ∀ a ∈ addrs, ∃ out, symbolizeSingle (envAt cfg w (present w) w.maps) (.breakpad path)
        (Kind.fileOffset.of a) = .ok out := by
      intro a hm
      obtain ⟨out, h, _⟩ := Symbolize.C82_breakpad_total_partial cfg w (present w) w.maps (path := path) hc hrs a
        (hfit a hm) hn
      exact ⟨out, h⟩
    refine run_ok (cmd := .breakpad path addrs) (dirs := none) hask hans hs ?_
    obtain ⟨a, hm⟩ := List.exists_mem_of_ne_nil _ hne
    obtain ⟨out, ho⟩ := hs a hm
    refine Symbolize.C43_batch_ok _ _ .fileOffset addrs a out (by intro p h; cases h) ho ?_
    intro b hmb hb
    obtain ⟨out, ho⟩ := hs b hmb
    rw [ho] at hb
    cases hb

/-- **C81** (GSYM files; partial: see C82_gsym_partial) The tool prints, for every address, the entry of the file that it
is in, with the source location and the inlined functions, or that there is none (also if there was an error for this
address). -/
theorem C81_gsym_partial (p : Platform) (w : World M) (path : Bytes) (addrs : List Nat)
    (hlen : ∀ m data, w.disk.contents m = .ok (.ok data) → data.length < 2 ^ 63) {data : Bytes}
    (hc : HasContents w (w.disk.stat path) data) {f : Gsym.GsymFile} (hg : GoodGsym data f)
    (hplain : ∀ a ∈ addrs, ∀ out,
      ((State.new (settings p Inspect.defaultDebugDirs)).symbolizeSingle
        (settings p Inspect.defaultDebugDirs) w (.gsymFile path) (.virtOffset a)).1 = .ok out →
      PlainAnswer p.display out) (ha : ∀ a ∈ addrs, a < 2 ^ 64)
    (hr : (runSymbolize p w (.gsym path addrs)).result = .ok ()) :
    Tells p.display (fun a out =>
      InGsym (Symbolize.shownName p.demangler true .unknown) .codeInfoAndInlined data f a out ∨
        out = .unknown .ignoredError) addrs (runSymbolize p w (.gsym path addrs)).stdout := by
  have hask : Asks (.gsym path addrs) (.gsymFile path) (Kind.virtOffset.of addrs) none := .gsym path addrs
  let cfg : Settings M (KernelCache M) := settings p Inspect.defaultDebugDirs
  have hans := answers_of_oneName (cfg := cfg) rfl rfl hlen (by intro ks h; cases h)
    (oneName_symbols cfg w (.gsymFile path) (.inr ⟨path, rfl⟩))
  have key : ∀ a ∈ addrs, ∀ out, symbolizeSingle (envAt cfg w (present w) w.maps) (.gsymFile path)
      (Kind.virtOffset.of a) = .ok out →
        InGsym (Symbolize.shownName p.demangler true .unknown) .codeInfoAndInlined data f a out ∧
          PlainAnswer p.display out := by
    intro a hm out h
    exact ⟨(Symbolize.C82_gsym_partial cfg w (present w) w.maps hg a out).1 path hc h,
      hplain a hm out (by rw [hans.2]; exact h)⟩
  obtain ⟨outs, h1, h2⟩ := run_tells (cmd := .gsym path addrs) (dirs := none) hask hans
    (fun a hm out h => .inl (key a hm out h)) (batch_right (by intro q h; cases h) key) ha (by
      rintro a _ out (h | rfl)
      · exact h.2
      · trivial) hr
  exact ⟨outs, h1.imp fun a o h => h.imp (fun h => h.1) id, h2⟩

/-! ### Examples -/

/-- Names and places without any unusual bytes can be printed. -/
theorem plain_of_bytes {out : Symbolized} (h : match out with
      | .unknown _ => true
      | .sym s => decide (s.addr < 2 ^ 64 ∧ s.offset < 2 ^ 64 ∧ (10 : UInt8) ∉ s.name ∧ (64 : UInt8) ∉ s.name) &&
        (s.codeInfo :: s.inlined.map (·.codeInfo)).all (fun c => c.all fun c =>
          decide ((10 : UInt8) ∉ sourcePath c ∧ (58 : UInt8) ∉ sourcePath c) &&
            c.line.all (fun n => decide (n < 2 ^ 64)) && c.column.all (fun n => decide (n < 2 ^ 64))) &&
        s.inlined.all fun f => decide ((10 : UInt8) ∉ f.name ∧ (64 : UInt8) ∉ f.name)) : PlainAnswer id out := by
  have hname : ∀ name : Bytes, (10 : UInt8) ∉ name ∧ (64 : UInt8) ∉ name → PlainName name :=
    fun name hn => ⟨hn.1, fun hx => hn.2 (hx.subset (by decide))⟩
  cases out with
  | unknown => trivial
  | sym s =>
    simp only [Bool.and_eq_true, decide_eq_true_eq, List.all_eq_true, List.mem_cons, List.mem_map, forall_eq_or_imp,
      Option.all_eq_true] at h
    obtain ⟨⟨⟨h1, h2, h3⟩, h4, h5⟩, h6⟩ := h
    refine ⟨hname _ h3, h1, h2, fun c hc => ?_, fun f hf => ⟨hname _ (h6 f hf), fun c hc => ?_⟩⟩
    · obtain ⟨⟨k1, k2⟩, k3⟩ := h4 c hc
      exact ⟨k1.1, k1.2, k2, k3⟩
    · obtain ⟨⟨k1, k2⟩, k3⟩ := h5 _ ⟨f, hf, rfl⟩ c hc
      exact ⟨k1.1, k1.2, k2, k3⟩

set_option maxRecDepth 20000 in
theorem exBreakpad_short : ∀ m data, Symbolize.exBreakpad.disk.contents m = .ok (.ok data) → data.length < 2 ^ 63 := by
  intro m data h
  simp only [Symbolize.exBreakpad] at h
  split at h
  · cases h; decide +kernel
  · split at h
    · cases h; decide +kernel
    · cases h

set_option maxRecDepth 20000 in
theorem exGsym_short : ∀ m data, Symbolize.exGsym.disk.contents m = .ok (.ok data) → data.length < 2 ^ 63 := by
  intro m data h
  simp only [Symbolize.exGsym] at h
  split at h
  · cases h; decide +kernel
  · split at h
    · cases h; decide +kernel
    · cases h

set_option maxRecDepth 20000 in
/-- What the theorem says about a Breakpad file. -/
example : ∃ rs, Breakpad.IsSymbolFile rs Blazesym.Breakpad.sample ∧
    (runSymbolize exPlatform Symbolize.exBreakpad (.breakpad (ascii "/s.sym") [0x12, 0x30])).result = .ok () ∧
    Tells id (fun a out => InBreakpad (Symbolize.shownName exPlatform.demangler true .unknown) .codeInfoAndInlined rs a out ∨
        out = .unknown .ignoredError ∧ ¬ AllNamed rs) [0x12, 0x30]
      (runSymbolize exPlatform Symbolize.exBreakpad (.breakpad (ascii "/s.sym") [0x12, 0x30])).stdout := by
  obtain ⟨rs, h1, h2, h3⟩ := Symbolize.sample_ok
  obtain ⟨k1, k2⟩ := C81_breakpad_partial exPlatform Symbolize.exBreakpad (ascii "/s.sym") [0x12, 0x30] exBreakpad_short
    ⟨0, by decide, rfl⟩ h1 (fun a _ => h3 a) (by
      intro a hm out ho
      simp only [List.mem_cons, List.not_mem_nil, or_false] at hm
      apply plain_of_bytes
      rcases hm with rfl | rfl
      · rw [show ((State.new (settings exPlatform Inspect.defaultDebugDirs)).symbolizeSingle
          (settings exPlatform Inspect.defaultDebugDirs) Symbolize.exBreakpad (.breakpad (ascii "/s.sym"))
            (.fileOffset 0x12)).1 = .ok (.sym ⟨ascii "f x", some (ascii "prog"), 0x10, 2, some 8,
              some ⟨none, ascii "b.c", some 7, none⟩, [⟨ascii "inl", some ⟨none, ascii "a.c", some 3, none⟩⟩]⟩) by
          decide +kernel] at ho
        cases ho
        decide +kernel
      · rw [show ((State.new (settings exPlatform Inspect.defaultDebugDirs)).symbolizeSingle
          (settings exPlatform Inspect.defaultDebugDirs) Symbolize.exBreakpad (.breakpad (ascii "/s.sym"))
            (.fileOffset 0x30)).1 = .ok (.unknown .unknownAddr) by decide +kernel] at ho
        cases ho
        rfl) (by decide)
  exact ⟨rs, h1, k2 h2 (by decide), k1 (k2 h2 (by decide))⟩

set_option maxRecDepth 20000 in
/-- What the theorem says about a GSYM file. -/
example : Tells id (fun a out => InGsym (Symbolize.shownName exPlatform.demangler true .unknown) .codeInfoAndInlined
        Blazesym.Gsym.codeSample Blazesym.Gsym.codeFile a out ∨ out = .unknown .ignoredError) [0x1005, 0x1100]
      (runSymbolize exPlatform Symbolize.exGsym (.gsym (ascii "/s.gsym") [0x1005, 0x1100])).stdout := by
  refine C81_gsym_partial exPlatform Symbolize.exGsym (ascii "/s.gsym") [0x1005, 0x1100] exGsym_short
    Symbolize.exGsym_s Symbolize.code_good ?_ (by decide) (by decide +kernel)
  intro a hm out ho
  simp only [List.mem_cons, List.not_mem_nil, or_false] at hm
  apply plain_of_bytes
  rcases hm with rfl | rfl
  · rw [show ((State.new (settings exPlatform Inspect.defaultDebugDirs)).symbolizeSingle
      (settings exPlatform Inspect.defaultDebugDirs) Symbolize.exGsym (.gsymFile (ascii "/s.gsym"))
        (.virtOffset 0x1005)).1 = .ok (.sym ⟨ascii "a", none, 0x1000, 5, some 0x100,
          some ⟨some [], [], some 7, none⟩, [⟨ascii "b", some ⟨some [], ascii "a", some 10, none⟩⟩]⟩) by
      decide +kernel] at ho
    cases ho
    decide +kernel
  · rw [show ((State.new (settings exPlatform Inspect.defaultDebugDirs)).symbolizeSingle
      (settings exPlatform Inspect.defaultDebugDirs) Symbolize.exGsym (.gsymFile (ascii "/s.gsym"))
        (.virtOffset 0x1100)).1 = .ok (.unknown .unknownAddr) by decide +kernel] at ho
    cases ho
    rfl

end Blazesym.Cli
