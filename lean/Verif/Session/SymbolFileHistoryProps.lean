import Verif.Session.BreakpadAnswerProps
import Verif.Session.GsymAnswerProps
import Verif.Session.VersionProps

/-!
# C82: what is reported for Breakpad and GSYM files by a symbolizer that was used before
-/

set_option autoImplicit false

namespace Blazesym.Symbolize
open Blazesym.Util Blazesym.Breakpad Blazesym.Spec Blazesym.Spec.Breakpad Blazesym.Spec.Gsym Blazesym.Spec.Symbolize Blazesym.Cache

variable {M K : Type} [DecidableEq M]

/-- The answers to requests with one address, for symbol files. -/
theorem single_symbols {cfg : Settings M K} {contents : M → Except Err (Except Err Bytes)} {s : State M K}
    (hr : Reachable cfg (SameContents contents) s) (w : World M) (hw : w.disk.contents = contents) (src : Source)
    (hs : (∃ path, src = .breakpad path) ∨ ∃ path, src = .gsymFile path) (input : Input Nat) :
    (s.symbolizeSingle cfg w src input).1 =
      symbolizeSingle (envAt cfg w (versions s w) (mapsOf w s.vmas)) src input := by
  subst hw
  have hh := host_plain (cfg := cfg) (w := w) s (Q := Eq) (fun _ => rfl) none
    (fun l => (∃ p, l = .breakpad p) ∨ ∃ p, l = .gsym p)
    (by rintro l (⟨p, rfl⟩ | ⟨p, rfl⟩) <;> trivial) (by rintro _ _ _ (⟨p, h⟩ | ⟨p, h⟩) <;> cases h)
    (by intro f h; cases h) (by rintro _ _ _ (⟨p, h⟩ | ⟨p, h⟩) <;> cases h)
  have := erel_eq (fun _ _ => out_eq) (symbolizeSingle_sim hh src input (by
    intro l hl
    rcases hs with ⟨path, rfl⟩ | ⟨path, rfl⟩ <;> cases hl
    · exact .inl ⟨_, rfl⟩
    · exact .inr ⟨_, rfl⟩) s ⟨(loose_reachable hr).1, StateFrame.refl w s⟩).1
  rw [show (s.symbolizeSingle cfg w src input).1 = ((host cfg w).symbolizeSingle src input s).1 from rfl, this]
  rcases hs with ⟨path, rfl⟩ | ⟨path, rfl⟩ <;> rfl

/-- **C82** (Breakpad, any history; partial: see C82_breakpad_partial) Whatever a symbolizer was used for before, what it
reports for an offset of a Breakpad file is what the records of the version of the file that it uses have for it, also in
a request for several; only if the file does not name all it refers to there may be an error. -/
theorem C82_breakpad_history_partial {cfg : Settings M K} {contents : M → Except Err (Except Err Bytes)} {s : State M K}
    (hr : Reachable cfg (SameContents contents) s) (w : World M) (hw : w.disk.contents = contents) {path data : Bytes}
    (hc : HasContents w ((versions s w).breakpad path) data) {rs : List Breakpad.Record} (hrs : IsSymbolFile rs data) :
    (∀ addr, FitsAt rs addr →
      (∃ out, (s.symbolizeSingle cfg w (.breakpad path) (.fileOffset addr)).1 = .ok out ∧
        InBreakpad (shownBy cfg .unknown) (findSymOpts cfg.codeInfo cfg.inlinedFns) rs addr out) ∨
      (s.symbolizeSingle cfg w (.breakpad path) (.fileOffset addr)).1 = .error .invalidInput ∧
        findSymOpts cfg.codeInfo cfg.inlinedFns ≠ .basic ∧ ¬ AllNamed rs) ∧
    ∀ addrs, (∀ a ∈ addrs, FitsAt rs a) → ∃ outs, (s.symbolize cfg w (.breakpad path) (.fileOffset addrs)).1 = .ok outs ∧
      List.Forall₂ (fun addr out =>
        InBreakpad (shownBy cfg .unknown) (findSymOpts cfg.codeInfo cfg.inlinedFns) rs addr out ∨
          out = .unknown .ignoredError ∧ ¬ AllNamed rs) addrs outs := by
  constructor
  · intro addr hfit
    rw [single_symbols hr w hw _ (.inl ⟨path, rfl⟩)]
    exact C82_breakpad_partial cfg w _ _ hc hrs addr hfit
  · intro addrs hfit
    rw [C68_breakpad hr w hw]
    have key := fun (a : Nat) (hm : a ∈ addrs) => C82_breakpad_partial cfg w (versions s w) (mapsOf w s.vmas) hc hrs a
      (hfit a hm)
    obtain ⟨file, hf, _⟩ := C24_parse_complete hrs
    have hr' : (envAt cfg w (versions s w) (mapsOf w s.vmas)).breakpad path = .ok file.findSym := by
      obtain ⟨m, h1, h2⟩ := hc
      simp only [envAt, fileOf, h1, ofVersion, h2, hf]
    have hb : symbolize (envAt cfg w (versions s w) (mapsOf w s.vmas)) (.breakpad path) (.fileOffset addrs) =
        Maps.collect (addrs.map fun a => orElse (fun _ => .ok (.unknown .ignoredError))
          ((envAt cfg w (versions s w) (mapsOf w s.vmas)).symbolizeWith a file.findSym)) := by
      simp [symbolize, symbolizeImpl, hr']
    have hone : ∀ a, symbolizeSingle (envAt cfg w (versions s w) (mapsOf w s.vmas)) (.breakpad path) (.fileOffset a) =
        (envAt cfg w (versions s w) (mapsOf w s.vmas)).symbolizeWith a file.findSym := by
      intro a
      simp [symbolizeSingle, Input.map, symbolizeImpl, hr', orElse_keep]
    rw [hb]
    simp only [hone] at key
    rcases collect_folded (fun a => (envAt cfg w (versions s w) (mapsOf w s.vmas)).symbolizeWith a file.findSym) addrs with
      ⟨outs, h1, h2⟩ | ⟨_, a, ha, h2⟩
    · refine ⟨outs, h1, ?_⟩
      rw [List.forall₂_iff_get] at h2 ⊢
      refine ⟨h2.1, fun i hi hi' => ?_⟩
      rcases key _ (List.get_mem addrs ⟨i, hi⟩) with ⟨out', k1, k2⟩ | ⟨k1, _, k2⟩
      · rcases h2.2 i hi hi' with h' | ⟨⟨e, _, h'⟩, _⟩
        · have h3 := h'.symm.trans k1
          cases h3
          exact .inl k2
        · have h3 := h'.symm.trans k1
          cases h3
      · rcases h2.2 i hi hi' with h' | ⟨_, h''⟩
        · have h3 := h'.symm.trans k1
          cases h3
        · exact .inr ⟨h'', k2⟩
    · rcases key a ha with ⟨out', k1, _⟩ | ⟨k1, _⟩
      · have h3 := h2.symm.trans k1
        cases h3
      · have h3 := h2.symm.trans k1
        cases h3

/-- **C82** (GSYM, any history; partial: see C82_gsym_partial and C82_gsym_total_partial) Whatever a symbolizer was used
for before, what it reports for an address of a GSYM file is what the version of the file that it uses has for it, also in
a request for several, in which there may be markers for addresses with errors; and there is an answer for every address
of an entry that is not damaged, and for every one below all entries. -/
theorem C82_gsym_history_partial {cfg : Settings M K} {contents : M → Except Err (Except Err Bytes)} {s : State M K}
    (hr : Reachable cfg (SameContents contents) s) (w : World M) (hw : w.disk.contents = contents) {path data : Bytes}
    (hc : HasContents w ((versions s w).gsym path) data) {f : GsymFile} (hg : GoodGsym data f) :
    (∀ addr out, (s.symbolizeSingle cfg w (.gsymFile path) (.virtOffset addr)).1 = .ok out →
      InGsym (shownBy cfg .unknown) (findSymOpts cfg.codeInfo cfg.inlinedFns) data f addr out) ∧
    (∀ addr start size name items, Entry data f addr start size name items → ItemsReadable items start addr →
      AllKnown f start addr items →
      ∃ out, (s.symbolizeSingle cfg w (.gsymFile path) (.virtOffset addr)).1 = .ok out) ∧
    (∀ addr, (∀ o ∈ f.offsets, addr < f.base + o) →
      (s.symbolizeSingle cfg w (.gsymFile path) (.virtOffset addr)).1 = .ok (.unknown .unknownAddr)) ∧
    ∀ addrs outs, (s.symbolize cfg w (.gsymFile path) (.virtOffset addrs)).1 = .ok outs →
      List.Forall₂ (fun addr out =>
        InGsym (shownBy cfg .unknown) (findSymOpts cfg.codeInfo cfg.inlinedFns) data f addr out ∨
          out = .unknown .ignoredError ∧ ∃ e, (s.symbolizeSingle cfg w (.gsymFile path) (.virtOffset addr)).1 = .error e)
        addrs outs := by
  have heq := fun addr => single_symbols hr w hw (.gsymFile path) (.inr ⟨path, rfl⟩) (.virtOffset addr)
  refine ⟨?_, ?_, ?_, ?_⟩
  · intro addr out h
    rw [heq] at h
    exact (C82_gsym_partial cfg w _ _ hg addr out).1 path hc h
  · intro addr start size name items he hread hk
    rw [heq]
    exact (C82_gsym_total_partial cfg w _ _ he hread hk).1 path hc
  · intro addr h
    rw [heq]
    exact C82_gsym_above cfg w _ _ hg addr h hc
  · intro addrs outs h
    rw [C68_gsym hr w hw] at h
    refine (C43_batch _ _ .virtOffset addrs outs (by intro q h; cases h) h).imp ?_
    rintro a o (h1 | ⟨⟨e, _, h1⟩, h2⟩)
    · exact .inl ((C82_gsym_partial cfg w _ _ hg a o).1 path hc h1)
    · exact .inr ⟨h2, e, by rw [heq]; exact h1⟩

/-! ### Examples -/

/-- The host of the example before: another version was at the path. -/
def exBefore : World Nat :=
  { exBreakpad with disk := ⟨fun p => if p = ascii "/s.sym" then .ok 1 else .error .notFound, exBreakpad.disk.contents⟩ }

/-- A symbolizer that has used that version. -/
def exUsed (addrs : List Nat) : State Nat Unit :=
  after exSettings exBefore (State.new exSettings) (.symbolize (.breakpad (ascii "/s.sym")) (.fileOffset addrs))

theorem exUsed_reachable (addrs : List Nat) :
    Reachable exSettings (SameContents exBreakpad.disk.contents) (exUsed addrs) := .call _ _ _ .new ⟨rfl, trivial⟩

example (addrs : List Nat) (addr : Nat) : ∃ rs out, IsSymbolFile rs sample ∧
    ((exUsed addrs).symbolizeSingle exSettings exBreakpad (.breakpad (ascii "/s.sym")) (.fileOffset addr)).1 = .ok out ∧
      InBreakpad (shownBy exSettings .unknown) .codeInfoAndInlined rs addr out := by
  obtain ⟨rs, h1, h2, h3⟩ := sample_ok
  rcases (C82_breakpad_history_partial (exUsed_reachable addrs) exBreakpad rfl (path := ascii "/s.sym") ⟨0, by rfl, rfl⟩
    h1).1 addr (h3 addr) with ⟨out, h4, h5⟩ | ⟨_, _, h⟩
  · exact ⟨rs, out, h1, h4, h5⟩
  · exact absurd h2 h

/-- The same with GSYM files. -/
def exGsymBefore : World Nat :=
  { exGsym with disk := ⟨fun p => if p = ascii "/s.gsym" then .ok 1 else .error .notFound, exGsym.disk.contents⟩ }

def exGsymUsed (addrs : List Nat) : State Nat Unit :=
  after exSettings exGsymBefore (State.new exSettings) (.symbolize (.gsymFile (ascii "/s.gsym")) (.virtOffset addrs))

example (addrs : List Nat) : ∃ out,
    ((exGsymUsed addrs).symbolizeSingle exSettings exGsym (.gsymFile (ascii "/s.gsym")) (.virtOffset 0x1005)).1 = .ok out ∧
      InGsym (shownBy exSettings .unknown) .codeInfoAndInlined Gsym.codeSample Gsym.codeFile 0x1005 out := by
  have hr : Reachable exSettings (SameContents exGsym.disk.contents) (exGsymUsed addrs) := .call _ _ _ .new ⟨rfl, trivial⟩
  have hc : HasContents exGsym ((versions (exGsymUsed addrs) exGsym).gsym (ascii "/s.gsym")) Gsym.codeSample := ⟨0, by rfl, rfl⟩
  have h := C82_gsym_history_partial hr exGsym rfl hc code_good
  obtain ⟨out, ho⟩ := h.2.1 _ _ _ _ _ Gsym.code_entry Gsym.code_readable Gsym.code_known
  exact ⟨out, ho, h.1 _ _ ho⟩

end Blazesym.Symbolize
