import Verif.Session.GsymAnswerSpec
import Verif.Session.AnswerProps
import Verif.Session.KernelDebugProps
import Verif.Gsym.DataProps

/-!
# C82: what is reported for an address of a GSYM file, from its contents
-/

set_option autoImplicit false

namespace Blazesym.Symbolize
open Blazesym.Util Blazesym.Gsym Blazesym.Spec Blazesym.Spec.Gsym Blazesym.Spec.Symbolize

variable {M K : Type}

/-- Files are mapped at the beginning of a page. -/
theorem at_page (data : Bytes) : (⟨4096, data⟩ : Cursor).addr % 4 = 0 ∧ (⟨4096, data⟩ : Cursor).addr % 8 = 0 := by
  constructor <;> norm_num

theorem looked_gsym {env : Env} {c : Cursor} {ctx : Context} {f : GsymFile} (ha : c.addr % 8 = 0) (hg : GoodGsym c.data f)
    (hp : parseHeader c = .ok ctx) {addr : Nat} {out : Symbolized}
    (h : Looked env (Gsym.findSym ctx) addr (.ok out)) : InGsym (env.shown .unknown) env.opts c.data f addr out := by
  generalize ho : (Except.ok out : Except Err Symbolized) = o at h
  cases h with
  | sym s name names h1 h2 h3 h4 =>
    cases ho
    obtain ⟨i, size, own, items, k1, k2, k3, k4, k5, k6, k7⟩ :=
      C39_gsym_data_partial ha hg.describes hp hg.width hg.sorted addr env.opts s h1
    rw [h3, h4, zip_names, k5, k3, k6]
    exact .entry i s.addr size own s.name items _ _ k1 k2 k4 k7
  | reason r h1 =>
    cases ho
    obtain ⟨rfl, h | ⟨i, o, info, size, nm, k1, k2, k3, k4, k5, k6⟩⟩ :=
      C39_gsym_unknown ha hg.describes hp hg.width hg.sorted addr env.opts r h1
    · exact .above h
    · exact .beyond i o info size nm k1 k2 k3 k4 k5 k6
  | error e h1 => cases ho
  | behind y h1 h2 => cases ho

theorem looked_gsym_total {env : Env} {c : Cursor} {ctx : Context} {f : GsymFile} (ha : c.addr % 8 = 0)
    (hp : parseHeader c = .ok ctx) {addr start size : Nat} {name : Bytes} {items : List Item}
    (he : Entry c.data f addr start size name items) (hread : ItemsReadable items start addr)
    (hk : AllKnown f start addr items) : ∃ out, Looked env (Gsym.findSym ctx) addr (.ok out) := by
  obtain ⟨r, hr⟩ := C39_gsym_data_total_partial ha he hp hread hk env.opts
  have hle := (C18_never_above addr env.opts r hr)
  exact ⟨_, .sym r _ _ hr hle rfl rfl⟩

theorem gsym_file_eq {cfg : Settings M K} {w : World M} {v : Versions M}
    {maps : Nat → Except Err (List (Except Err Maps.Entry))} {path data : Bytes}
    (hc : HasContents w (v.gsym path) data) {ctx : Context} (hp : parseHeader ⟨4096, data⟩ = .ok ctx) :
    (envAt cfg w v maps).gsymFile path = .ok (Gsym.findSym ctx) := by
  obtain ⟨m, h1, h2⟩ := hc
  simp only [envAt, fileOf, h1, ofVersion, h2, hp]

theorem gsym_data_eq {cfg : Settings M K} {w : World M} {v : Versions M}
    {maps : Nat → Except Err (List (Except Err Maps.Entry))} {data : Bytes} {ctx : Context}
    (hp : parseHeader ⟨w.gsymAddr, data⟩ = .ok ctx) :
    (envAt cfg w v maps).gsymData data = .ok (Gsym.findSym ctx) := by
  simp only [envAt, hp]

/-- **C82** (GSYM; partial: damaged entries, see `InGsym`, and data in memory that is not aligned to eight bytes, see
C18_unaligned_unknown) The symbol reported for an address is the entry of the GSYM file, or of the GSYM data in memory,
that the address is in, with the source location and the inlined functions that the data of the entry has for it; and an
address is reported as unknown only if it is in no entry. -/
theorem C82_gsym_partial (cfg : Settings M K) (w : World M) (v : Versions M)
    (maps : Nat → Except Err (List (Except Err Maps.Entry))) {data : Bytes} {f : GsymFile} (hg : GoodGsym data f)
    (addr : Nat) (out : Symbolized) :
    (∀ path, HasContents w (v.gsym path) data →
      symbolizeSingle (envAt cfg w v maps) (.gsymFile path) (.virtOffset addr) = .ok out →
      InGsym (shownBy cfg .unknown) (findSymOpts cfg.codeInfo cfg.inlinedFns) data f addr out) ∧
    (w.gsymAddr % 8 = 0 →
      symbolizeSingle (envAt cfg w v maps) (.gsymData data) (.virtOffset addr) = .ok out →
      InGsym (shownBy cfg .unknown) (findSymOpts cfg.codeInfo cfg.inlinedFns) data f addr out) := by
  constructor
  · intro path hc h
    obtain ⟨ctx, hp, _⟩ := parseHeader_complete (c := ⟨4096, data⟩) (at_page data).1 hg.describes
    rw [(C42_gsym _ path _ addr _).2 (gsym_file_eq hc hp)] at h
    exact looked_gsym (c := ⟨4096, data⟩) (at_page data).2 hg hp h
  · intro ha h
    obtain ⟨ctx, hp, _⟩ := parseHeader_complete (c := ⟨w.gsymAddr, data⟩) (by show w.gsymAddr % 4 = 0; omega) hg.describes
    rw [(C42_gsym _ data _ addr _).1 (gsym_data_eq hp)] at h
    exact looked_gsym (c := ⟨w.gsymAddr, data⟩) ha hg hp h

/-- **C82** (GSYM, addresses of entries; partial: entries that end beyond the address space or share their start with
others) If the data of an entry is not damaged and what it refers to is known, there is an answer for every address of the
entry. -/
theorem C82_gsym_total_partial (cfg : Settings M K) (w : World M) (v : Versions M)
    (maps : Nat → Except Err (List (Except Err Maps.Entry))) {data : Bytes} {f : GsymFile}
    {addr start size : Nat} {name : Bytes} {items : List Item} (he : Entry data f addr start size name items)
    (hread : ItemsReadable items start addr) (hk : AllKnown f start addr items) :
    (∀ path, HasContents w (v.gsym path) data →
      ∃ out, symbolizeSingle (envAt cfg w v maps) (.gsymFile path) (.virtOffset addr) = .ok out) ∧
    (w.gsymAddr % 8 = 0 → ∃ out, symbolizeSingle (envAt cfg w v maps) (.gsymData data) (.virtOffset addr) = .ok out) := by
  constructor
  · intro path hc
    obtain ⟨ctx, hp, _⟩ := parseHeader_complete (c := ⟨4096, data⟩) (at_page data).1 he.file
    obtain ⟨out, ho⟩ := looked_gsym_total (env := envAt cfg w v maps) (c := ⟨4096, data⟩) (at_page data).2 hp he hread hk
    exact ⟨out, ((C42_gsym _ path _ addr _).2 (gsym_file_eq hc hp)).mpr ho⟩
  · intro ha
    obtain ⟨ctx, hp, _⟩ := parseHeader_complete (c := ⟨w.gsymAddr, data⟩) (by show w.gsymAddr % 4 = 0; omega) he.file
    obtain ⟨out, ho⟩ := looked_gsym_total (env := envAt cfg w v maps) (c := ⟨w.gsymAddr, data⟩) ha hp he hread hk
    exact ⟨out, ((C42_gsym _ data _ addr _).1 (gsym_data_eq hp)).mpr ho⟩

/-- **C82** (GSYM, other addresses) An address that is below all entries is reported as unknown. -/
theorem C82_gsym_above (cfg : Settings M K) (w : World M) (v : Versions M)
    (maps : Nat → Except Err (List (Except Err Maps.Entry))) {data : Bytes} {f : GsymFile} (hg : GoodGsym data f)
    (addr : Nat) (h : ∀ o ∈ f.offsets, addr < f.base + o) {path : Bytes} (hc : HasContents w (v.gsym path) data) :
    symbolizeSingle (envAt cfg w v maps) (.gsymFile path) (.virtOffset addr) = .ok (.unknown .unknownAddr) := by
  obtain ⟨ctx, hp, _⟩ := parseHeader_complete (c := ⟨4096, data⟩) (at_page data).1 hg.describes
  rw [(C42_gsym _ path _ addr _).2 (gsym_file_eq hc hp)]
  exact .reason _ (C18_below (c := ⟨4096, data⟩) (at_page data).2 hg.describes hp hg.width hg.sorted addr _ h)

/-- **C82** (GSYM, other files) A file that is not a GSYM file is refused for every address. -/
theorem C82_gsym_refused (cfg : Settings M K) (w : World M) (v : Versions M)
    (maps : Nat → Except Err (List (Except Err Maps.Entry))) {path data : Bytes}
    (hc : HasContents w (v.gsym path) data) (hno : ¬ ∃ f, Describes data f) (addr : Nat) :
    symbolizeSingle (envAt cfg w v maps) (.gsymFile path) (.virtOffset addr) = .error .invalidData := by
  obtain ⟨h1, h2⟩ := C18_parse ⟨4096, data⟩ (at_page data).1
  have hr : (envAt cfg w v maps).gsymFile path = .error .invalidData := by
    cases hp : parseHeader ⟨4096, data⟩ with
    | ok ctx => exact absurd (h1.mp ⟨ctx, hp⟩) hno
    | error e =>
      have := h2 e hp
      subst this
      obtain ⟨m, k1, k2⟩ := hc
      simp only [envAt, fileOf, k1, ofVersion, k2, hp]
  simp [symbolizeSingle, Input.map, symbolizeImpl, hr]

/-! ### Examples -/

def exGsym : World Nat :=
  { exHost false with
    disk := ⟨fun p => if p = ascii "/s.gsym" then .ok 0 else if p = ascii "/t.gsym" then .ok 1 else .error .notFound,
      fun m => if m = 0 then .ok (.ok codeSample) else if m = 1 then .ok (.ok [1, 2, 3]) else .error .notFound⟩ }

theorem exGsym_s : HasContents exGsym ((present exGsym).gsym (ascii "/s.gsym")) codeSample := ⟨0, by decide, rfl⟩
theorem exGsym_t : HasContents exGsym ((present exGsym).gsym (ascii "/t.gsym")) [1, 2, 3] := ⟨1, by decide, rfl⟩

theorem code_good : GoodGsym codeSample codeFile := ⟨code_describes, by decide, by simp [Ascending, codeFile]⟩

/-- What the theorems say about the example. -/
example : ∃ out,
    symbolizeSingle (envAt exSettings exGsym (present exGsym) exGsym.maps) (.gsymFile (ascii "/s.gsym"))
      (.virtOffset 0x1005) = .ok out ∧
    InGsym (shownBy exSettings .unknown) .codeInfoAndInlined codeSample codeFile 0x1005 out := by
  obtain ⟨out, ho⟩ := (C82_gsym_total_partial exSettings exGsym (present exGsym) exGsym.maps code_entry code_readable
    code_known).1 _ exGsym_s
  exact ⟨out, ho, (C82_gsym_partial exSettings exGsym (present exGsym) exGsym.maps code_good 0x1005 out).1 _ exGsym_s ho⟩

example : symbolizeSingle (envAt exSettings exGsym (present exGsym) exGsym.maps) (.gsymFile (ascii "/s.gsym"))
    (.virtOffset 0xfff) = .ok (.unknown .unknownAddr) :=
  C82_gsym_above exSettings exGsym (present exGsym) exGsym.maps code_good 0xfff (by simp [codeFile]) exGsym_s

example : ¬ ∃ f, Describes [1, 2, 3] f := by
  rintro ⟨f, hf⟩
  obtain ⟨ctx, h, _⟩ := parseHeader_complete (c := ⟨4096, [1, 2, 3]⟩) (at_page _).1 hf
  revert h
  rw [show parseHeader ⟨4096, [1, 2, 3]⟩ = .error .invalidData by decide +kernel]
  intro h; cases h

set_option maxRecDepth 20000 in
/-- And what is reported: an inlined function, a line, and no entry; and a file that is refused. -/
example : [0x1005, 0x1000, 0x1100].map (fun addr => symbolizeSingle
      (envAt exSettings exGsym (present exGsym) exGsym.maps) (.gsymFile (ascii "/s.gsym")) (.virtOffset addr)) =
    [.ok (.sym ⟨ascii "a", none, 0x1000, 5, some 0x100, some ⟨some [], [], some 7, none⟩,
       [⟨ascii "b", some ⟨some [], ascii "a", some 10, none⟩⟩]⟩),
     .ok (.sym ⟨ascii "a", none, 0x1000, 0, some 0x100, some ⟨some [], ascii "a", some 10, none⟩, []⟩),
     .ok (.unknown .unknownAddr)] ∧
    symbolizeSingle (envAt exSettings exGsym (present exGsym) exGsym.maps) (.gsymFile (ascii "/t.gsym"))
      (.virtOffset 0x1005) = .error .invalidData := by
  decide +kernel

end Blazesym.Symbolize
