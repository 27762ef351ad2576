import Verif.Session.KernelDebugProps

/-! Property theorems C72 (what is reported for files, processes and archives if debug information is used). -/

set_option autoImplicit false

namespace Blazesym.Symbolize
open Blazesym.Util Blazesym.Cache Blazesym.Spec Blazesym.Spec.Symbolize
open Blazesym.Dwarf hiding Resolver
open Blazesym.Maps (EntryPath)

variable {M K : Type}

theorem in_elf_debug {env : Env} {t : Tools} {module : Bytes} {image : Elf.Backend} {d : DebugData} {s : Sections}
    {file : Bytes} {symtab dynsym : Elf.SymTab} (hp : DebugParts t module image d s file symtab dynsym) {addr : Nat}
    (ha : addr + 1 < 2 ^ 64) {out : Symbolized}
    (h : Looked env (ElfResolver.findSym t (.dwarf ⟨some module, image⟩ d)) addr (.ok out)) :
    InElfDebug env.shown env.opts module d.units.units s file symtab dynsym addr out := by
  have hf := from_debug hp ha env.opts
  generalize hr : ElfResolver.findSym t (.dwarf ⟨some module, image⟩ d) addr env.opts = r at hf
  cases hf with
  | error e =>
    have := looked_of_error hr h
    cases this
  | function sym hd du e name k1 k2 k3 k4 k5 kl k6 k7 =>
    obtain ⟨y, rfl, y1, y2, y3, y4, y5, y6, y7⟩ := looked_of_found hr h
    refine .function y ⟨hd, du, e, name, _, k1, k2, k3, kl, by rw [y1, k4], by rw [y2, k5], y4, fun hrg => ?_,
      fun ho => ⟨_, by rw [y6]; exact k7 ho, y7⟩⟩
    obtain ⟨r, r1, r2, r3⟩ := k6 hrg
    exact ⟨r, r1, by rw [y3, r2], by rw [y5, r3]⟩
  | symbols _ r' hno hfe hsame =>
    have hsf : SameFound s env.opts addr (ElfResolver.findSym t (.dwarf ⟨some module, image⟩ d) addr env.opts)
        (foundAs r' addr env.opts) := by
      rw [hr]; exact hsame
    obtain ⟨out', h4, h5⟩ := samePlace_of hsf h
    refine .symbols out out' hno ?_ h5
    cases hfe with
    | error e =>
      have := looked_of_error (find := foundAs (.error e)) rfl h4
      cases this
    | missing hn h0 =>
      have := looked_of_reason (find := foundAs (.ok (.error .missingSyms))) rfl h4
      cases this
      exact .missing h0 hn.2
    | unknown hn h0 =>
      have := looked_of_reason (find := foundAs (.ok (.error .unknownAddr))) rfl h4
      cases this
      exact .unknown h0 hn.1 hn.2
    | found sym name hc =>
      have hle := chosen_le hc
      have := looked_of_sym (find := foundAs (.ok (.ok ⟨name, some file, sym.value,
        if sym.size = 0 then none else some sym.size, .unknown, none, []⟩))) rfl hle rfl h4
      cases this
      cases hc with
      | symtab hs => exact .symtab sym name hs
      | dynsym hab hs => exact .dynsym sym name hab hs

/-- What the resolver of an image with debug information reports for an offset. -/
theorem debug_at_offset {env : Env} {t : Tools} {module : Bytes} {image : Elf.Backend} {d : DebugData} {s : Sections}
    {file : Bytes} {symtab dynsym : Elf.SymTab} (hp : DebugParts t module image d s file symtab dynsym)
    {phdrs : List Elf.Phdr} (hs : (Elf.File.ofImage t.codec image).phdrs = .ok phdrs) (hfit : Spec.Elf.SegmentsFit phdrs)
    {off : Nat} {out : Symbolized}
    (h : LookedAt env (elfAsResolver t (.dwarf ⟨some module, image⟩ d)) off (.ok out)) :
    AtOffset phdrs (fun addr out => addr + 1 < 2 ^ 64 →
      InElfDebug env.shown env.opts module d.units.units s file symtab dynsym addr out) off out :=
  at_offset (file := Elf.File.ofImage t.codec image) hs hfit (fun _ => rfl) (fun _ _ hl ha => in_elf_debug hp ha hl) h

/-- **C72** (debug information; partial: functions that are not nested, and C66 says what debug
information `d` belongs to the file) Symbolizing a virtual offset or an offset of an ELF file with debug
information, which is the default, reports a function the debug information has there, or else the symbol
that stands for it; the same goes for addresses of processes that are mapped from the file.  If line
programs are orderly, source locations and inlined functions are those of the debug information (see C64). -/
theorem C72_debug_file_partial (cfg : Settings M K) (w : World M) (v : Versions M)
    (maps : Nat → Except Err (List (Except Err Maps.Entry))) {path represented data : Bytes}
    (hc : HasContents w (v.elf path) data) {d : DebugData}
    (hd : (fromParser cfg.tools w.files cfg.debugDirs ⟨some represented, .mem 4096 data⟩).eval
      (fun q => elfAt w v.elf q q) = .ok d) {s : Sections} {file : Bytes} {symtab dynsym : Elf.SymTab}
    (hp : DebugParts cfg.tools represented (.mem 4096 data) d s file symtab dynsym) {phdrs : List Elf.Phdr}
    (hs : (Elf.File.ofImage cfg.tools.codec (.mem 4096 data)).phdrs = .ok phdrs) (hfit : Spec.Elf.SegmentsFit phdrs)
    (out : Symbolized) :
    (path = represented → ∀ x, x + 1 < 2 ^ 64 →
      symbolizeSingle (envAt cfg w v maps) (.elf path true) (.virtOffset x) = .ok out →
      InElfDebug (shownBy cfg) (wantedBy cfg) path d.units.units s file symtab dynsym x out) ∧
    (path = represented → ∀ x, symbolizeSingle (envAt cfg w v maps) (.elf path true) (.fileOffset x) = .ok out →
      AtOffset phdrs (fun addr out => addr + 1 < 2 ^ 64 →
        InElfDebug (shownBy cfg) (wantedBy cfg) path d.units.units s file symtab dynsym addr out) x out) ∧
    (∀ (src : ProcessSource) (e : Maps.Entry) (a off : Nat) (p : EntryPath), src.debugSyms = true →
      MappedAt maps src.pid a e off → NoDispatch cfg e → e.pathName = some (.path p) → ¬ IsArchive p.symbolicPath →
      readFrom src p = path → p.symbolicPath = represented →
      symbolizeSingle (envAt cfg w v maps) (.process src) (.absAddr a) = .ok out →
      AtOffset phdrs (fun addr out => addr + 1 < 2 ^ 64 →
        InElfDebug (shownBy cfg) (wantedBy cfg) p.symbolicPath d.units.units s file symtab dynsym addr out) off out) := by
  rw [← wantedBy_eq]
  refine ⟨?_, ?_, ?_⟩
  · rintro rfl x hx h
    exact in_elf_debug (env := envAt cfg w v maps) hp hx
      ((C42_elf_virt_offset _ path true _ x _ (envAt_debug hc hd)).mp h)
  · rintro rfl x h
    exact debug_at_offset (env := envAt cfg w v maps) hp hs hfit
      ((C42_elf_file_offset _ path true _ x _ (envAt_debug hc hd)).mp h)
  · rintro src e a off p hds he hnd hn har rfl rfl h
    obtain ⟨es, k1, k2, k3⟩ := he.listed
    have hoff := he.offset
    subst hoff
    exact debug_at_offset (env := envAt cfg w v maps) hp hs hfit
      (((C44_file (envAt cfg w v maps) src es a e p k1 k2 k3 ⟨he.lower, he.upper⟩ he.fits
        (notDispatched_of hnd) hn ⟨fun hx => har (.inl hx), fun hx => har (.inr hx)⟩).1 _ (.ok out)
          (by rw [hds]; exact envAt_debug hc hd)).mp h)

theorem memberResolver_debug {cfg : Settings M K} {w : World M} {actual represented : Bytes} {e : Zip.Entry}
    (hd : NoApkDispatch cfg actual e) (hslash : e.path.head? ≠ some 47) {d : DebugData}
    (hdd : (fromParser cfg.tools w.files cfg.debugDirs
      ⟨some (represented ++ ascii "!/" ++ e.path), .mem (4096 + e.dataOffset) e.data⟩).eval (openParser w.disk) = .ok d) :
    memberResolver cfg w actual represented true e.dataOffset e.path e.data =
      .ok (elfAsResolver cfg.tools
        (.dwarf ⟨some (represented ++ ascii "!/" ++ e.path), .mem (4096 + e.dataOffset) e.data⟩ d)) := by
  have hname : Zip.createApkElfPath represented e.path = represented ++ ascii "!/" ++ e.path := by
    obtain ⟨rest, h1, h2, _⟩ := Zip.C27_path represented e.path
    rw [h1, h2 hslash]
    rfl
  have hdef : defaultApkDispatcher cfg w represented true e.dataOffset e.path e.data =
      .ok (elfAsResolver cfg.tools
        (.dwarf ⟨some (represented ++ ascii "!/" ++ e.path), .mem (4096 + e.dataOffset) e.data⟩ d)) := by
    simp only [defaultApkDispatcher, hname, if_true, hdd]
  unfold memberResolver
  cases hx : cfg.apkDispatch with
  | none => exact hdef
  | some d => simp only [hd d hx, hdef]

/-- **C72** (debug information; partial: see above) Symbolizing an offset in an archive with debug
information reports a function the debug information of the member that has this offset has there, or else
the symbol that stands for it, under the names of the archive and the member. The same goes for an address
of a process that is mapped from there. -/
theorem C72_debug_archive_partial (cfg : Settings M K) (w : World M) (v : Versions M)
    (maps : Nat → Except Err (List (Except Err Maps.Entry))) {actual represented data : Bytes}
    (hc : HasContents w (v.apk actual) data) (hlen : data.length < 2 ^ 63) {off : Nat} {e : Zip.Entry}
    (hm : MemberAt data off e) (hd : NoApkDispatch cfg actual e) (hslash : e.path.head? ≠ some 47) {d : DebugData}
    (hdd : (fromParser cfg.tools w.files cfg.debugDirs
      ⟨some (represented ++ ascii "!/" ++ e.path), .mem (4096 + e.dataOffset) e.data⟩).eval (openParser w.disk) = .ok d)
    {s : Sections} {file : Bytes} {symtab dynsym : Elf.SymTab}
    (hp : DebugParts cfg.tools (represented ++ ascii "!/" ++ e.path) (.mem (4096 + e.dataOffset) e.data) d s file symtab
      dynsym) {phdrs : List Elf.Phdr}
    (hs : (Elf.File.ofImage cfg.tools.codec (.mem (4096 + e.dataOffset) e.data)).phdrs = .ok phdrs)
    (hfit : Spec.Elf.SegmentsFit phdrs) (out : Symbolized) :
    (actual = represented → symbolizeSingle (envAt cfg w v maps) (.apk actual true) (.fileOffset off) = .ok out →
      AtOffset phdrs (fun addr out => addr + 1 < 2 ^ 64 →
        InElfDebug (shownBy cfg) (wantedBy cfg) (actual ++ ascii "!/" ++ e.path) d.units.units s file symtab dynsym addr out)
          (off - e.dataOffset) out) ∧
    (∀ (src : ProcessSource) (addr : Nat) (x : Maps.Entry) (p : EntryPath), src.debugSyms = true →
      MappedAt maps src.pid addr x off → NoDispatch cfg x → x.pathName = some (.path p) → IsArchive p.symbolicPath →
      readFrom src p = actual → p.symbolicPath = represented →
      symbolizeSingle (envAt cfg w v maps) (.process src) (.absAddr addr) = .ok out →
      AtOffset phdrs (fun addr out => addr + 1 < 2 ^ 64 →
        InElfDebug (shownBy cfg) (wantedBy cfg) (p.symbolicPath ++ ascii "!/" ++ e.path) d.units.units s file symtab dynsym addr out)
          (off - e.dataOffset) out) := by
  rw [← wantedBy_eq]
  constructor
  · rintro rfl h
    rw [single_apk, envAt_apk hc hlen hm (memberResolver_debug hd hslash hdd)] at h
    exact debug_at_offset (env := envAt cfg w v maps) hp hs hfit ((C44_looked_at _ _ _ _).mp h)
  · rintro src addr x p hds he hnd hn ha rfl rfl h
    rw [single_archive he hnd hn ha, hds, envAt_apk hc hlen hm (memberResolver_debug hd hslash hdd)] at h
    exact debug_at_offset (env := envAt cfg w v maps) hp hs hfit ((C44_looked_at _ _ _ _).mp h)

/-- **C72** (debug information; partial: orderly histories, and see above) The same for a symbolizer that
was used before. -/
theorem C72_debug_caching_partial [DecidableEq M] {cfg : Settings M K} (hb : DispatchByName cfg) {k : Known M}
    (hlen : ∀ m data, k.contents m = .ok (.ok data) → data.length < 2 ^ 63)
    {st : State M K} (hr : Reachable cfg (Orderly cfg k) st) (w : World M) {path represented data : Bytes}
    (hc : HasContents w ((versions st w).elf path) data) {d : DebugData}
    (hd : (fromParser cfg.tools w.files cfg.debugDirs ⟨some represented, .mem 4096 data⟩).eval
      (fun q => elfAt w (versions st w).elf q q) = .ok d) {s : Sections} {file : Bytes} {symtab dynsym : Elf.SymTab}
    (hp : DebugParts cfg.tools represented (.mem 4096 data) d s file symtab dynsym) {phdrs : List Elf.Phdr}
    (hs : (Elf.File.ofImage cfg.tools.codec (.mem 4096 data)).phdrs = .ok phdrs) (hfit : Spec.Elf.SegmentsFit phdrs)
    (out : Symbolized) :
    (path = represented → ∀ x, x + 1 < 2 ^ 64 →
      Orderly cfg k st w (.symbolizeSingle (.elf path true) (.virtOffset x)) →
      (st.symbolizeSingle cfg w (.elf path true) (.virtOffset x)).1 = .ok out →
      InElfDebug (shownBy cfg) (wantedBy cfg) path d.units.units s file symtab dynsym x out) ∧
    (path = represented → ∀ x, Orderly cfg k st w (.symbolizeSingle (.elf path true) (.fileOffset x)) →
      (st.symbolizeSingle cfg w (.elf path true) (.fileOffset x)).1 = .ok out →
      AtOffset phdrs (fun addr out => addr + 1 < 2 ^ 64 →
        InElfDebug (shownBy cfg) (wantedBy cfg) path d.units.units s file symtab dynsym addr out) x out) ∧
    (∀ (src : ProcessSource) (e : Maps.Entry) (a off : Nat) (p : EntryPath), src.debugSyms = true →
      MappedAt (mapsOf w st.vmas) src.pid a e off → NoDispatch cfg e → e.pathName = some (.path p) →
      ¬ IsArchive p.symbolicPath → readFrom src p = path → p.symbolicPath = represented →
      Orderly cfg k st w (.symbolizeSingle (.process src) (.absAddr a)) →
      (st.symbolizeSingle cfg w (.process src) (.absAddr a)).1 = .ok out →
      AtOffset phdrs (fun addr out => addr + 1 < 2 ^ 64 →
        InElfDebug (shownBy cfg) (wantedBy cfg) p.symbolicPath d.units.units s file symtab dynsym addr out) off out) := by
  obtain ⟨k1, k2, k3⟩ := C72_debug_file_partial cfg w (versions st w) (mapsOf w st.vmas) hc hd hp hs hfit out
  refine ⟨fun he x hx ho h => ?_, fun he x ho h => ?_, ?_⟩
  · rw [C68_single_partial hb hlen hr w _ (by intro ks hk; cases hk) _ ho] at h
    exact k1 he x hx h
  · rw [C68_single_partial hb hlen hr w _ (by intro ks hk; cases hk) _ ho] at h
    exact k2 he x h
  · intro src e a off p h1 h2 h3 h4 h5 h6 h7 ho h
    rw [C68_single_partial hb hlen hr w _ (by intro ks hk; cases hk) _ ho] at h
    exact k3 src e a off p h1 h2 h3 h4 h5 h6 h7 h

/-! ### Examples -/

/-- A symbolizer whose files have the debug information of `exFile`. -/
def exDebugSettings := { exSettings with tools := exDebugTools }

set_option maxRecDepth 20000 in
/-- What is reported for offsets of a file, addresses of a process and of an archive: the debug information
has `foo` where the symbol table has `f`. -/
example :
    nameAndModule (symbolizeSingle (envAt exDebugSettings exRich (present exRich) exRich.maps)
      (.elf (ascii "/bin/c") true) (.virtOffset 0x1008)) = some (exFoo, some (ascii "/bin/c")) ∧
    nameAndModule (symbolizeSingle (envAt exDebugSettings exRich (present exRich) exRich.maps)
      (.elf (ascii "/bin/c") true) (.fileOffset 8)) = some (exFoo, some (ascii "/bin/c")) ∧
    [0x400008, 0x600028].map (fun addr => nameAndModule (symbolizeSingle
      (envAt exDebugSettings exRich (present exRich) exRich.maps) (.process ⟨7, true, true, false, true⟩) (.absAddr addr))) =
    [some (exFoo, some (ascii "/bin/c")), some (exFoo, some (ascii "/bin/z.apk!/a"))] := by
  refine ⟨?_, ?_, ?_⟩ <;> decide +kernel

end Blazesym.Symbolize
