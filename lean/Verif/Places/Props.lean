import Verif.Places.Spec
import Verif.Session.AnswerProps
import Verif.Session.StateProps
import Verif.Session.RoundTripProps

/-! # C100: a place has the same symbol however it is given -/

set_option autoImplicit false

namespace Blazesym.Places
open Blazesym.Util Blazesym.Symbolize Blazesym.Spec Blazesym.Spec.Symbolize Blazesym.Spec.Places
open Blazesym.Dwarf hiding Resolver
open Blazesym.Maps (EntryPath)

variable {M K : Type}

/-- The resolver for a file translates with the segments of this file, also if there is debug information elsewhere. -/
theorem elf_toVirt {cfg : Settings M K} {w : World M} {v : Versions M}
    {maps : Nat → Except Err (List (Except Err Maps.Entry))} {path represented data : Bytes}
    (hc : HasContents w (v.elf path) data) {debugSyms : Bool} {r : Resolver}
    (h : (envAt cfg w v maps).elf path represented debugSyms = .ok r) (off : Nat) :
    r.toVirt off = (Elf.File.ofImage cfg.tools.codec (.mem 4096 data)).fileOffsetToVirtOffset off := by
  obtain ⟨m, h1, h2⟩ := hc
  cases debugSyms with
  | false =>
    simp [envAt, elfAt, Spec.Symbolize.fileOf, Blazesym.Spec.ofVersion, h1, h2, elfParse] at h
    rw [← h]
    rfl
  | true =>
    simp only [envAt, debugAt, elfAt, Spec.Symbolize.fileOf, Blazesym.Spec.ofVersion, h1, h2, elfParse, if_true] at h
    split at h
    · cases h
    · cases h
      rfl

/-- **C100** (ELF files) A request for offsets in an ELF file is answered like a request for the virtual addresses that
these offsets are loaded at, with and without debug information, also if it fails. -/
theorem C100_offsets (cfg : Settings M K) (w : World M) (v : Versions M)
    (maps : Nat → Except Err (List (Except Err Maps.Entry))) {path data : Bytes} (hc : HasContents w (v.elf path) data)
    {phdrs : List Elf.Phdr} (hp : (Elf.File.ofImage cfg.tools.codec (.mem 4096 data)).phdrs = .ok phdrs)
    (hfit : Spec.Elf.SegmentsFit phdrs) (debugSyms : Bool) :
    (∀ off addr, LoadedAt phdrs off addr →
      symbolizeSingle (envAt cfg w v maps) (.elf path debugSyms) (.fileOffset off) =
        symbolizeSingle (envAt cfg w v maps) (.elf path debugSyms) (.virtOffset addr)) ∧
    ∀ offs addrs, List.Forall₂ (LoadedAt phdrs) offs addrs →
      symbolize (envAt cfg w v maps) (.elf path debugSyms) (.fileOffset offs) =
        symbolize (envAt cfg w v maps) (.elf path debugSyms) (.virtOffset addrs) := by
  generalize henv : envAt cfg w v maps = env
  cases hr : env.elf path path debugSyms with
  | error e =>
    exact ⟨fun off addr _ => by simp [symbolizeSingle, Input.map, symbolizeImpl, hr],
      fun offs addrs _ => by simp [symbolize, symbolizeImpl, hr]⟩
  | ok r =>
    have key : ∀ off addr, LoadedAt phdrs off addr → env.symbolizeOffset r off = env.symbolizeWith addr r.find := by
      rintro off addr ⟨p, hfirst, rfl⟩
      have : r.toVirt off = .ok (some (p.vaddr + (off - p.offset))) := by
        rw [elf_toVirt hc (by rw [henv]; exact hr) off]
        exact Elf.C09_virt_offset_found _ _ hp hfit off p hfirst
      simp [Env.symbolizeOffset, this]
    constructor
    · intro off addr h
      simp [symbolizeSingle, Input.map, symbolizeImpl, hr, key off addr h]
    · intro offs addrs h
      have : ∀ fold, offs.map (fun off => orElse fold (env.symbolizeOffset r off)) =
          addrs.map (fun addr => orElse fold (env.symbolizeWith addr r.find)) := by
        intro fold
        induction h with
        | nil => rfl
        | cons h _ ih => rw [List.map_cons, List.map_cons, ih, key _ _ h]
      simp only [symbolize, symbolizeImpl, hr, this]

/-- **C100** (processes) An address of a process that is mapped from an ELF file is reported like the virtual address in
this file that the place is loaded at.  Debug information is used for both or for none. -/
theorem C100_process (cfg : Settings M K) (w : World M) (v : Versions M)
    (maps : Nat → Except Err (List (Except Err Maps.Entry))) (src : ProcessSource)
    {addr off : Nat} {e : Maps.Entry} (he : MappedAt maps src.pid addr e off) (hd : NoDispatch cfg e)
    {p : EntryPath} (hn : e.pathName = some (.path p)) (ha : ¬ IsArchive p.symbolicPath) {data : Bytes}
    (hc : HasContents w (v.elf p.symbolicPath) data)
    (hm : src.mapFiles = true → src.debugSyms = false ∧ HasContents w (v.elf p.mapsFile) data)
    {phdrs : List Elf.Phdr} (hp : (Elf.File.ofImage cfg.tools.codec (.mem 4096 data)).phdrs = .ok phdrs)
    (hfit : Spec.Elf.SegmentsFit phdrs) (x : Nat) (hx : LoadedAt phdrs off x) :
    symbolizeSingle (envAt cfg w v maps) (.process src) (.absAddr addr) =
      symbolizeSingle (envAt cfg w v maps) (.elf p.symbolicPath src.debugSyms) (.virtOffset x) := by
  rw [← (C100_offsets cfg w v maps hc hp hfit src.debugSyms).1 off x hx]
  obtain ⟨es, h1, h2, h3⟩ := he.listed
  have hoff := he.offset
  subst hoff
  obtain ⟨g1, g2⟩ := C44_file (envAt cfg w v maps) src es addr e p h1 h2 h3 ⟨he.lower, he.upper⟩ he.fits
    (notDispatched_of hd) hn ⟨fun hx => ha (.inl hx), fun hx => ha (.inr hx)⟩
  have same : (envAt cfg w v maps).elf (if src.mapFiles then p.mapsFile else p.symbolicPath) p.symbolicPath src.debugSyms =
      (envAt cfg w v maps).elf p.symbolicPath p.symbolicPath src.debugSyms := by
    cases hmf : src.mapFiles with
    | false => simp
    | true =>
      obtain ⟨hds, hc'⟩ := hm hmf
      rw [hds, if_pos rfl, envAt_elf hc, envAt_elf hc']
  cases hr : (envAt cfg w v maps).elf p.symbolicPath p.symbolicPath src.debugSyms with
  | error err =>
    rw [g2 err (by rw [same]; exact hr)]
    simp [symbolizeSingle, Input.map, symbolizeImpl, hr]
  | ok r =>
    rw [g1 r _ (by rw [same]; exact hr)]
    exact (C42_elf_file_offset _ _ _ r _ _ hr).mp rfl

/-- **C100** (archives) An offset in an archive is reported, apart from the name of the module, like the virtual address
that this part of the member is loaded at, in a file with the contents of the member.  The member has to be aligned in
the archive. -/
theorem C100_archive (cfg : Settings M K) (w : World M) (v : Versions M)
    (maps : Nat → Except Err (List (Except Err Maps.Entry))) {archive data path : Bytes}
    (hc : HasContents w (v.apk archive) data) (hlen : data.length < 2 ^ 63) {off : Nat} {e : Zip.Entry}
    (hm : MemberAt data off e) (hd : NoApkDispatch cfg archive e) (hslash : e.path.head? ≠ some 47)
    (hal : e.dataOffset % 8 = 0) (hce : HasContents w (v.elf path) e.data)
    {phdrs : List Elf.Phdr} (hp : (Elf.File.ofImage cfg.tools.codec (.mem 4096 e.data)).phdrs = .ok phdrs)
    (hfit : Spec.Elf.SegmentsFit phdrs) (x : Nat) (hx : LoadedAt phdrs (off - e.dataOffset) x) :
    ERel RoundTrip.AgreeButModule (symbolizeSingle (envAt cfg w v maps) (.apk archive false) (.fileOffset off))
      (symbolizeSingle (envAt cfg w v maps) (.elf path false) (.virtOffset x)) := by
  rw [← (C100_offsets cfg w v maps hce hp hfit false).1 _ x hx, single_apk,
    envAt_apk hc hlen hm (memberResolver_default hd hslash), RoundTrip.single_elf, envAt_elf hce]
  exact RoundTrip.moved_offset _ _ _ _ (Elf.sameReads_mem (by omega) _) _

/-- **C100** (partial: for orderly histories, see C68) Two symbolizers that reload files and are not told to cache
anything answer the same, whatever they were used for before, when one is given offsets in an ELF file and the other the
virtual addresses these are loaded at. -/
theorem C100_histories_partial [DecidableEq M] {cfg : Settings M K} (hb : DispatchByName cfg)
    (har : cfg.autoReload = true) {k : Known M} (hlen : ∀ m data, k.contents m = .ok (.ok data) → data.length < 2 ^ 63)
    {s s' : State M K} (hs : Reachable cfg (fun s w c => Orderly cfg k s w c ∧ NotCaching c) s)
    (hs' : Reachable cfg (fun s w c => Orderly cfg k s w c ∧ NotCaching c) s') (w : World M)
    (hcon : w.disk.contents = k.contents) {path data : Bytes} (debugSyms : Bool)
    (hfits : Fits cfg k w (present w) (.elf path path debugSyms))
    (hc : HasContents w ((present w).elf path) data)
    {phdrs : List Elf.Phdr} (hp : (Elf.File.ofImage cfg.tools.codec (.mem 4096 data)).phdrs = .ok phdrs)
    (hfit : Spec.Elf.SegmentsFit phdrs) (offs addrs : List Nat) (h : List.Forall₂ (LoadedAt phdrs) offs addrs) :
    (s.symbolize cfg w (.elf path debugSyms) (.fileOffset offs)).1 =
      (s'.symbolize cfg w (.elf path debugSyms) (.virtOffset addrs)).1 := by
  have ho : ∀ l, Uses w.maps (.elf path debugSyms) l → Fits cfg k w (present w) l := by
    intro l hl
    cases hl
    exact hfits
  rw [(C68_fresh_partial hb har hlen hs w (.elf path debugSyms) (by intro ks hk; cases hk) _ hcon ho).1,
    (C68_fresh_partial hb har hlen hs' w (.elf path debugSyms) (by intro ks hk; cases hk) _ hcon ho).1]
  exact (C100_offsets cfg w (present w) w.maps hc hp hfit debugSyms).2 offs addrs h

/-! ### Examples -/

theorem tinyLoaded : LoadedAt [tinyPhdr] 8 0x1008 :=
  ⟨tinyPhdr, ⟨[], [], rfl, ⟨by decide, by decide⟩, by intro p hp; cases hp⟩, rfl⟩

/-- The second half of the code of `f`, by its offset, by its address, and mapped by a process. -/
example (debugSyms : Bool) :
    symbolizeSingle (envAt exSettings exRich (present exRich) exRich.maps) (.elf (ascii "/bin/c") debugSyms) (.fileOffset 8) =
      symbolizeSingle (envAt exSettings exRich (present exRich) exRich.maps) (.elf (ascii "/bin/c") debugSyms)
        (.virtOffset 0x1008) :=
  (C100_offsets exSettings exRich _ _ ⟨0, by decide, rfl⟩ (tinyParts 4096 (by decide)).segments
    (tinyParts 4096 (by decide)).fits debugSyms).1 8 0x1008 tinyLoaded

example : symbolizeSingle (envAt exSettings exRich (present exRich) exRich.maps) (.process ⟨7, false, true, false, true⟩)
      (.absAddr 0x400008) =
    symbolizeSingle (envAt exSettings exRich (present exRich) exRich.maps) (.elf (ascii "/bin/c") false)
      (.virtOffset 0x1008) := by
  obtain ⟨e, h1, h2⟩ := exMapped (0, 0x400008, 8) (by decide)
  cases h1
  exact C100_process exSettings exRich (present exRich) exRich.maps ⟨7, false, true, false, true⟩ h2
    (by intro d hd; cases hd) rfl (by unfold IsArchive; decide +kernel) (data := Elf.tinyElf) ⟨0, by decide, rfl⟩ (by intro h; cases h)
    (tinyParts 4096 (by decide)).segments (tinyParts 4096 (by decide)).fits 0x1008 tinyLoaded

/-- A world with the archive, and its member in a file of its own. -/
example : ERel RoundTrip.AgreeButModule
    (symbolizeSingle (envAt exSettings exRich (present exRich) exRich.maps) (.apk (ascii "/bin/z.apk") false) (.fileOffset 40))
    (symbolizeSingle (envAt exSettings exRich (present exRich) exRich.maps) (.elf (ascii "/bin/c") false)
      (.virtOffset 0x1008)) :=
  C100_archive exSettings exRich (present exRich) exRich.maps (data := tinyZip) ⟨1, by decide, rfl⟩ (by decide +kernel)
    tinyZip_member (by intro d hd; cases hd) (by decide) (by decide) ⟨0, by decide, rfl⟩
    (tinyParts 4096 (by decide)).segments (tinyParts 4096 (by decide)).fits 0x1008 tinyLoaded

/-- The symbolizer that was used before, and a new one. -/
example : (Blazesym.RoundTrip.exSymbolizer.symbolize exSettings (Normalize.exNorm 0 1).toSession (.elf (ascii "/bin/c") false)
      (.fileOffset [8, 8])).1 =
    ((State.new exSettings).symbolize exSettings (Normalize.exNorm 0 1).toSession (.elf (ascii "/bin/c") false)
      (.virtOffset [0x1008, 0x1008])).1 :=
  C100_histories_partial (by intro d hd; cases hd) rfl (k := Blazesym.RoundTrip.exKnown) Blazesym.RoundTrip.exSmall Blazesym.RoundTrip.exSymbolizer_reachable .new _ rfl false
    (by
      intro m hm
      refine ⟨?_, by intro h; cases h⟩
      have : (present (Normalize.exNorm 0 1).toSession).elf (ascii "/bin/c") = .ok 0 := by decide
      rw [this] at hm
      cases hm
      rfl)
    (data := Elf.tinyElf) ⟨0, by decide, rfl⟩ (tinyParts 4096 (by decide)).segments (tinyParts 4096 (by decide)).fits _ _
    (.cons tinyLoaded (.cons tinyLoaded .nil))

end Blazesym.Places
