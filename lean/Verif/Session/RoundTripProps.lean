import Verif.Session.RoundTripSpec
import Verif.Session.NormalizerProps
import Verif.Session.AnswerProps
import Verif.Elf.Place

/-! Property theorems C76: normalizing now and symbolizing later. -/

set_option autoImplicit false

namespace Blazesym.RoundTrip
open Blazesym.Symbolize Blazesym.Maps Blazesym.Util Blazesym.Spec.RoundTrip
open Blazesym.Normalize (UserMeta Normalizer Opts Builder NResult)
open Blazesym.Spec.Symbolize
open Blazesym.Spec.Normalize (describe describeIn mappingOf Listing)
open Blazesym.Dwarf (ElfParser elfParse ElfResolver Tools)

variable {M K : Type}

/-! ### Lemmas -/

theorem isArchive_iff (p : Bytes) : IsArchive p ↔ (Spec.HasExtension p (ascii "apk") ∨ Spec.HasExtension p (ascii "zip")) := by
  unfold IsArchive
  rw [hasExtension_iff _ _ (by decide) (by decide), hasExtension_iff _ _ (by decide) (by decide)]

theorem agree_refl (x : Except Err Symbolized) : ERel Agree x x := by
  cases x with
  | error e => exact .error e
  | ok s =>
    cases s with
    | sym s => exact .ok _ _ (.sym s)
    | unknown r => exact .ok _ _ (.unknown r r)

theorem agreeButModule_refl (x : Except Err Symbolized) : ERel AgreeButModule x x := by
  cases x with
  | error e => exact .error e
  | ok s =>
    cases s with
    | sym s => exact .ok _ _ (.sym s s.module)
    | unknown r => exact .ok _ _ (.unknown r r)

theorem single_elf (env : Env) (path : Bytes) (debugSyms : Bool) (off : Nat) :
    symbolizeSingle env (.elf path debugSyms) (.fileOffset off) =
      match env.elf path path debugSyms with
      | .error e => .error e
      | .ok r => env.symbolizeOffset r off := by
  cases h : env.elf path path debugSyms <;> simp [symbolizeSingle, Input.map, symbolizeImpl, h, orElse_keep]

/-- Symbols under another name of the file. -/
theorem renamed_with (env : Env) (t : Tools) (a b : Option Bytes) (image : Elf.Backend) (addr : Nat) :
    ERel AgreeButModule (env.symbolizeWith addr (ElfParser.findSym t ⟨a, image⟩))
      (env.symbolizeWith addr (ElfParser.findSym t ⟨b, image⟩)) := by
  unfold Env.symbolizeWith symbolizeWithResolver ElfParser.findSym ElfParser.file
  simp only
  cases (Elf.File.ofImage t.codec image).findSym t.σ addr with
  | error e => exact .error e
  | ok r =>
    cases r with
    | error m => exact .ok _ _ (.unknown _ _)
    | ok s =>
      simp only [convertSym]
      cases subU addr s.addr with
      | error e => exact .error e
      | ok o => exact .ok _ _ (.sym _ b)

theorem renamed_offset (env : Env) (t : Tools) (a b : Option Bytes) (image : Elf.Backend) (off : Nat) :
    ERel AgreeButModule (env.symbolizeOffset (elfAsResolver t (.elf ⟨a, image⟩)) off)
      (env.symbolizeOffset (elfAsResolver t (.elf ⟨b, image⟩)) off) := by
  unfold Env.symbolizeOffset
  have h : (elfAsResolver t (.elf ⟨a, image⟩)).toVirt = (elfAsResolver t (.elf ⟨b, image⟩)).toVirt := rfl
  rw [h]
  cases (elfAsResolver t (.elf ⟨b, image⟩)).toVirt off with
  | error e => exact .error e
  | ok v =>
    cases v with
    | none => exact .ok _ _ (.unknown _ _)
    | some v => exact renamed_with env t a b image v

/-- The language of symbols of an ELF file is not known. -/
theorem findSym_lang {t : Tools} {p : ElfParser} {addr : Nat} {opts : FindSymOpts} {s : ResolvedSym}
    (h : p.findSym t addr opts = .ok (.ok s)) : s.lang = .unknown := by
  unfold ElfParser.findSym at h
  split at h
  · cases h
  · cases h
  · cases h; rfl

/-- What the vDSO has for an offset, when normalizing and when symbolizing. -/
theorem vdso_agree (env : Env) (shown : Bytes → Bytes)
    (hsh : ∀ n, shown n = shownName env.demangler env.demangle .unknown n) (t : Tools) (p : ElfParser) (off : Nat) :
    ERel Agree (env.symbolizeOffset (elfAsResolver t (.elf p)) off)
      (match (Normalize.asVdso t p).fileOffsetToVirtOffset off with
        | .error e => .error e
        | .ok none => .ok (.unknown .unmapped)
        | .ok (some v) =>
          match (Normalize.asVdso t p).symbolize v with
          | .error e => .error e
          | .ok (.sym s) => .ok (.sym (shownSym shown s))
          | .ok (.unknown r) => .ok (.unknown r)) := by
  unfold Env.symbolizeOffset
  have h : (elfAsResolver t (.elf p)).toVirt = (Normalize.asVdso t p).fileOffsetToVirtOffset := rfl
  rw [h]
  cases (Normalize.asVdso t p).fileOffsetToVirtOffset off with
  | error e => exact .error e
  | ok v =>
    cases v with
    | none => exact .ok _ _ (.unknown _ _)
    | some v =>
      simp only
      unfold Normalize.asVdso Env.symbolizeWith symbolizeWithResolver
      simp only
      have hf : (elfAsResolver t (.elf p)).find v env.opts = ElfParser.findSym t p v .basic := rfl
      rw [hf]
      have hlang : ∀ s, ElfParser.findSym t p v .basic = .ok (.ok s) → s.lang = .unknown :=
        fun s hs => findSym_lang hs
      generalize ElfParser.findSym t p v .basic = found at hlang
      cases found with
      | error e => exact .error e
      | ok r =>
        cases r with
        | error m => exact .ok _ _ (.unknown _ _)
        | ok s =>
          simp only [convertSym]
          cases subU v s.addr with
          | error e => exact .error e
          | ok o =>
            simp only [maybeDemangle_eq, hlang s rfl, shownSym, hsh]
            refine .ok _ _ ?_
            have := Agree.sym (⟨shownName env.demangler env.demangle .unknown s.name, s.module, s.addr, o, s.size,
              s.codeInfo, s.inlined.map fun f =>
                { f with name := shownName env.demangler env.demangle .unknown f.name }⟩ : Sym)
            simpa [Function.comp_def, shownName] using this

/-- A member of an archive under another name of the archive. -/
theorem renamed_apk (cfg : Settings M K) (w : World M) (v : Versions M)
    (maps : Nat → Except Err (List (Except Err Maps.Entry))) (actual a b : Bytes) (off : Nat) :
    ERel AgreeButModule ((envAt cfg w v maps).symbolizeApk actual a off false)
      ((envAt cfg w v maps).symbolizeApk actual b off false) := by
  unfold Env.symbolizeApk
  generalize henv : envAt cfg w v maps = env
  have ha : env.apk = (envAt cfg w v maps).apk := by rw [henv]
  rw [ha]
  simp only [envAt]
  cases fileOf w (v.apk actual) with
  | error e => exact .error e
  | ok f =>
    cases f with
    | error e => exact .error e
    | ok data =>
      simp only [Zip.createApkResolver, bind, Except.bind, pure, Except.pure]
      cases Zip.entries (Mmap.map data).deref with
      | error e => exact .error e
      | ok items =>
        simp only
        cases Zip.findMember off items with
        | error e => exact .error e
        | ok m =>
          cases m with
          | none => exact .ok _ _ (.unknown _ _)
          | some entry =>
            simp only
            cases Zip.memberData (Mmap.map data) entry with
            | error e => exact .error e
            | ok content =>
              simp only
              have key : memberResolver cfg w actual a false entry.dataOffset entry.path content =
                    memberResolver cfg w actual b false entry.dataOffset entry.path content ∨
                  ∀ name, memberResolver cfg w actual name false entry.dataOffset entry.path content =
                    .ok (elfAsResolver cfg.tools (.elf ⟨some (Zip.createApkElfPath name entry.path),
                      .mem (4096 + entry.dataOffset) content⟩)) := by
                unfold memberResolver
                cases cfg.apkDispatch with
                | none => exact .inr fun _ => rfl
                | some d =>
                  simp only
                  cases d actual entry.dataOffset entry.path content with
                  | error e => exact .inl rfl
                  | ok r =>
                    cases r with
                    | some r => exact .inl rfl
                    | none => exact .inr fun _ => rfl
              rcases key with key | key
              · rw [key]
                exact agreeButModule_refl _
              · rw [key a, key b]
                simp only
                have ht : (elfAsResolver cfg.tools (.elf ⟨some (Zip.createApkElfPath a entry.path),
                    .mem (4096 + entry.dataOffset) content⟩)).toVirt = (elfAsResolver cfg.tools (.elf
                    ⟨some (Zip.createApkElfPath b entry.path), .mem (4096 + entry.dataOffset) content⟩)).toVirt := rfl
                rw [ht]
                cases (elfAsResolver cfg.tools (.elf ⟨some (Zip.createApkElfPath b entry.path),
                    .mem (4096 + entry.dataOffset) content⟩)).toVirt (off - entry.dataOffset) with
                | error e => exact .error e
                | ok x =>
                  cases x with
                  | none => exact .ok _ _ (.unknown _ _)
                  | some x => exact renamed_with env cfg.tools _ _ _ x

/-- A file under another name. -/
theorem renamed_elf (cfg : Settings M K) (w : World M) (v : Versions M)
    (maps : Nat → Except Err (List (Except Err Maps.Entry))) (actual a b : Bytes) (off : Nat) :
    ERel AgreeButModule
      (match (envAt cfg w v maps).elf actual a false with
        | .error e => .error e
        | .ok r => (envAt cfg w v maps).symbolizeOffset r off)
      (match (envAt cfg w v maps).elf actual b false with
        | .error e => .error e
        | .ok r => (envAt cfg w v maps).symbolizeOffset r off) := by
  generalize henv : envAt cfg w v maps = env
  have ha : env.elf = (envAt cfg w v maps).elf := by rw [henv]
  rw [ha]
  simp only [envAt, elfAt, Bool.false_eq_true, if_false]
  cases fileOf w (v.elf actual) with
  | error e => exact .error e
  | ok f =>
    cases f with
    | error e => exact .error e
    | ok data => exact renamed_offset env cfg.tools _ _ _ off

/-! ### One address -/

/-- **C76** An address of a process is normalized and the result symbolized later: that gives what symbolizing
the address itself gives.  If files are read through `map_files`, the module is named differently. -/
theorem C76_address (cfg : Settings M K) (ncfg : Normalize.Settings) (ht : ncfg.tools = cfg.tools)
    (w : Normalize.World M) (v : Versions M) (maps : Nat → Except Err (List (Except Err Maps.Entry)))
    (src : ProcessSource) (hv : src.vdso = true) (hp : src.perfMap = false) (opts : Opts)
    (ho : opts.apkToElf = false) (hmf : opts.mapFiles = src.mapFiles) {es : List Maps.Entry}
    (hes : maps src.pid = .ok (es.map .ok)) (hl : Listing es) (hne : es ≠ [])
    (hd : ∀ e ∈ es, NoDispatch cfg e) (addr : Nat) {o : Nat × UserMeta}
    (h : describe (Spec.Normalize.envAt ncfg w opts src.pid) es addr = .ok o) :
    (src.mapFiles = false →
      ERel Agree (symbolizeSingle (envAt cfg w.toSession v maps) (.process src) (.absAddr addr))
        (symbolizedLater (symbolizeSingle (envAt cfg w.toSession v maps)) (shownBy cfg .unknown) src.debugSyms o)) ∧
    (src.debugSyms = false →
      ERel AgreeButModule (symbolizeSingle (envAt cfg w.toSession v maps) (.process src) (.absAddr addr))
        (symbolizedLater (symbolizeSingle (envAt cfg w.toSession v maps)) (shownBy cfg .unknown) src.debugSyms o)) := by
  have both : ∀ x y : Except Err Symbolized, ERel Agree x y →
      (src.mapFiles = false → ERel Agree x y) ∧ (src.debugSyms = false → ERel AgreeButModule x y) := by
    intro x y hxy
    refine ⟨fun _ => hxy, fun _ => ?_⟩
    cases hxy with
    | error e => exact .error e
    | ok a b hab =>
      cases hab with
      | sym s => exact .ok _ _ (.sym s s.module)
      | unknown r r' => exact .ok _ _ (.unknown r r')
  generalize henv : envAt cfg w.toSession v maps = env
  have hm : env.maps src.pid = .ok (es.map .ok) := by rw [← henv]; exact hes
  unfold describe at h
  cases hx : mappingOf es addr with
  | none =>
    rw [hx] at h
    cases h
    apply both
    have hno : ∀ e ∈ es, ¬ Has e addr := by
      unfold mappingOf at hx
      rw [List.find?_eq_none] at hx
      intro e he hh
      have := hx e he
      simp [hh.1, hh.2] at this
    rw [C44_unmapped env src es addr hm hl hne hno]
    exact .ok _ _ (.unknown _ _)
  | some e =>
    rw [hx] at h
    simp only at h
    have hmem : e ∈ es := List.mem_of_find?_eq_some hx
    have hhas : Has e addr := by
      have := List.find?_some hx
      simpa [Has] using this
    unfold describeIn at h
    simp only at h
    by_cases hov : addr - e.start + e.offset ≥ 2 ^ 64
    · rw [if_pos hov] at h; cases h
    rw [if_neg hov] at h
    have hdd : NotDispatched env e := by rw [← henv]; exact notDispatched_of (hd e hmem)
    rw [single_default env src es addr e hm hl hmem hhas (by omega) hdd]
    unfold handleDefault
    cases hn : e.pathName with
    | none =>
      rw [hn] at h
      cases h
      simp only [hp, Bool.false_eq_true, if_false]
      exact both _ _ (.ok _ _ (.unknown _ _))
    | some name =>
      rw [hn] at h
      cases name with
      | component c =>
        simp only at h ⊢
        by_cases hc : c = ascii "[vdso]"
        · rw [if_neg (not_not_intro hc)] at h
          rw [if_pos ⟨hv, hc⟩]
          apply both
          have e1 : env.vdso src.pid e.start e.stop = (envAt cfg w.toSession v maps).vdso src.pid e.start e.stop := by rw [henv]
          rw [e1]
          simp only [envAt, Spec.Normalize.envAt] at h ⊢
          cases hcv : createVdsoParser w.toSession src.pid e.start e.stop with
          | error err => rw [hcv] at h; cases h
          | ok parser =>
            rw [hcv] at h
            simp only [bind, Except.bind] at h ⊢
            rw [ht] at h
            have key := vdso_agree env (shownBy cfg .unknown) (by rw [← henv]; intro n; rfl) cfg.tools parser
              (addr - e.start + e.offset)
            cases hf : (Normalize.asVdso cfg.tools parser).fileOffsetToVirtOffset (addr - e.start + e.offset) with
            | error err => rw [hf] at h; cases h
            | ok vo =>
              rw [hf] at h key
              cases vo with
              | none => cases h; exact key
              | some virt =>
                simp only at h key
                cases hs : (Normalize.asVdso cfg.tools parser).symbolize virt with
                | error err => rw [hs] at h; cases h
                | ok out =>
                  rw [hs] at h key
                  cases out with
                  | sym s => cases h; exact key
                  | unknown r => cases h; exact key
        · rw [if_pos hc] at h
          rw [if_neg (fun hh => hc hh.2)]
          cases h
          exact both _ _ (.ok _ _ (.unknown _ _))
      | path p =>
        simp only at h ⊢
        have hfile : (if (Spec.Normalize.envAt ncfg w opts src.pid).mapFiles = true then p.mapsFile else p.symbolicPath) =
            (if src.mapFiles then p.mapsFile else p.symbolicPath) := by
          rw [show (Spec.Normalize.envAt ncfg w opts src.pid).mapFiles = opts.mapFiles from rfl, hmf]
        rw [hfile] at h
        have harch : (((extension p.symbolicPath).getD [] = ascii "apk" ∨ (extension p.symbolicPath).getD [] = ascii "zip") ↔
            (Spec.HasExtension p.symbolicPath (ascii "apk") ∨ Spec.HasExtension p.symbolicPath (ascii "zip"))) :=
          Normalize.apkExt_iff p.symbolicPath
        by_cases hx2 : (extension p.symbolicPath).getD [] = ascii "apk" ∨ (extension p.symbolicPath).getD [] = ascii "zip"
        · rw [if_pos hx2]
          rw [if_pos (harch.mp hx2), if_neg (show ¬ (Spec.Normalize.envAt ncfg w opts src.pid).apkToElf = true by
            rw [show (Spec.Normalize.envAt ncfg w opts src.pid).apkToElf = opts.apkToElf from rfl, ho]; decide)] at h
          cases h
          simp only [symbolizedLater]
          rw [single_apk]
          constructor
          · intro hmf; rw [hmf]; exact agree_refl _
          · intro hds
            rw [hds, ← henv]
            exact renamed_apk cfg w.toSession v maps _ _ _ _
        · rw [if_neg hx2]
          rw [if_neg (fun hh => hx2 (harch.mpr hh))] at h
          simp only [bind, Except.bind] at h
          cases hbid : Spec.Normalize.buildIdOf (Spec.Normalize.envAt ncfg w opts src.pid) e
              (if src.mapFiles then p.mapsFile else p.symbolicPath) with
          | error err => rw [hbid] at h; cases h
          | ok bid =>
            rw [hbid] at h
            cases h
            simp only [symbolizedLater]
            rw [single_elf]
            constructor
            · intro hmf; rw [hmf]; exact agree_refl _
            · intro hds
              rw [hds, ← henv]
              exact renamed_elf cfg w.toSession v maps _ _ _ _

/-! ### Members of archives -/

/-- An ELF image at another place, under another name. -/
theorem moved_offset (env : Env) (t : Tools) (a b : Option Bytes) {image image' : Elf.Backend}
    (h : Elf.SameReads image image') (off : Nat) :
    ERel AgreeButModule (env.symbolizeOffset (elfAsResolver t (.elf ⟨a, image⟩)) off)
      (env.symbolizeOffset (elfAsResolver t (.elf ⟨b, image'⟩)) off) := by
  have h1 : elfAsResolver t (.elf ⟨a, image⟩) = elfAsResolver t (.elf ⟨a, image'⟩) := by
    have hf : Elf.File.ofImage t.codec image = Elf.File.ofImage t.codec image' := h.file t.codec
    have h2 : ElfParser.findSym t ⟨a, image⟩ = ElfParser.findSym t ⟨a, image'⟩ := by
      funext addr opts
      simp only [ElfParser.findSym, ElfParser.file, hf]
    have h3 : ElfResolver.toVirt t (.elf ⟨a, image⟩) = ElfResolver.toVirt t (.elf ⟨a, image'⟩) := by
      funext off
      simp only [ElfResolver.toVirt, ElfParser.file, ElfResolver.parser, hf]
    show Resolver.mk (ElfParser.findSym t ⟨a, image⟩) (ElfResolver.toVirt t (.elf ⟨a, image⟩)) = _
    rw [h2, h3]
    rfl
  rw [h1]
  exact renamed_offset env t a b image' off

/-- **C76** If members of archives are reported in place of the archives, then the offset in the member is
reported, under the names of the archive and the member and with the build ID of the member, and symbolizing it
in a file with the contents of the member gives the symbol that symbolizing the address itself gives.  The member has to be aligned in the archive;
if it is not, it may not be possible to read it in there. -/
theorem C76_member (cfg : Settings M K) (ncfg : Normalize.Settings) (w : Normalize.World M) (v : Versions M)
    (maps : Nat → Except Err (List (Except Err Maps.Entry))) (src : ProcessSource) (hds : src.debugSyms = false)
    (opts : Opts) (ho : opts.apkToElf = true) (hmf : opts.mapFiles = src.mapFiles) {addr off : Nat} {x : Maps.Entry}
    (hx : MappedAt maps src.pid addr x off) (hd : NoDispatch cfg x) {p : EntryPath}
    (hn : x.pathName = some (.path p)) (ha : IsArchive p.symbolicPath) {data : Bytes}
    (hc : HasContents w.toSession (v.apk (readFrom src p)) data)
    (hc' : Spec.Normalize.contentsAt w (readFrom src p) = .ok data) (hlen : data.length < 2 ^ 63) {e : Zip.Entry}
    (hm : MemberAt data off e) (hda : NoApkDispatch cfg (readFrom src p) e) (hslash : e.path.head? ≠ some 47)
    (hal : e.dataOffset % 8 = 0) {o : Nat × UserMeta}
    (h : describeIn (Spec.Normalize.envAt ncfg w opts src.pid) x addr = .ok o) :
    (∃ bid, o = (off - e.dataOffset, .elf (readFrom src p ++ ascii "!/" ++ e.path) bid) ∧
      (ncfg.buildIds = false → bid = none) ∧
      (ncfg.buildIds = true → Elf.readBuildId ncfg.tools.codec (.mem 4096 e.data) = .ok bid)) ∧
    ∀ path, HasContents w.toSession (v.elf path) e.data →
      ERel AgreeButModule (symbolizeSingle (envAt cfg w.toSession v maps) (.process src) (.absAddr addr))
        (symbolizeSingle (envAt cfg w.toSession v maps) (.elf path false) (.fileOffset o.1)) := by
  have hname : Zip.createApkElfPath (readFrom src p) e.path = readFrom src p ++ ascii "!/" ++ e.path := by
    obtain ⟨rest, h1, h2, _⟩ := Zip.C27_path (readFrom src p) e.path
    rw [h1, h2 hslash]
    rfl
  have hfits := hx.fits
  have hoff := hx.offset
  have first : ∃ bid, o = (off - e.dataOffset, .elf (readFrom src p ++ ascii "!/" ++ e.path) bid) ∧
      (ncfg.buildIds = false → bid = none) ∧
      (ncfg.buildIds = true → Elf.readBuildId ncfg.tools.codec (.mem 4096 e.data) = .ok bid) := by
    obtain ⟨before, h3, h4, h5⟩ := hm
    obtain ⟨t1, t2, t3, _⟩ := Zip.C27_translate hlen h3 h4 h5
      (fun place data => Elf.readBuildId ncfg.tools.codec (.mem (4096 + place) data)) (readFrom src p)
    have key : (Spec.Normalize.envAt ncfg w opts src.pid).translateApk off
        (if (Spec.Normalize.envAt ncfg w opts src.pid).mapFiles = true then p.mapsFile else p.symbolicPath) =
        Zip.translateApkToElf data ncfg.buildIds
          (fun place data => Elf.readBuildId ncfg.tools.codec (.mem (4096 + place) data)) (readFrom src p) off := by
      rw [show (if (Spec.Normalize.envAt ncfg w opts src.pid).mapFiles = true then p.mapsFile else p.symbolicPath) =
        readFrom src p by
          rw [show (Spec.Normalize.envAt ncfg w opts src.pid).mapFiles = opts.mapFiles from rfl, hmf]; rfl]
      show Spec.Normalize.memberAt ncfg w off (readFrom src p) = _
      unfold Spec.Normalize.memberAt
      rw [hc']
    unfold describeIn at h
    simp only at h
    rw [hoff] at hfits
    rw [if_neg (by omega), hn] at h
    simp only at h
    rw [if_pos ((isArchive_iff _).mp ha), if_pos (show (Spec.Normalize.envAt ncfg w opts src.pid).apkToElf = true from ho),
      ← hoff, key] at h
    cases hb : ncfg.buildIds with
    | false =>
      rw [hb, t1, hname] at h
      simp only [bind, Except.bind] at h
      split at h
      · cases h; exact ⟨_, rfl, fun _ => rfl, by simp⟩
      · cases h
    | true =>
      rw [hb] at h
      cases hid : Elf.readBuildId ncfg.tools.codec (.mem (4096 + e.dataOffset) e.data) with
      | error err => rw [t3 err hid] at h; cases h
      | ok id =>
        rw [t2 id hid, hname] at h
        simp only [bind, Except.bind] at h
        split at h
        · cases h
          rw [Elf.buildId_place (show (4096 + e.dataOffset) % 8 = 4096 % 8 by omega)] at hid
          exact ⟨_, rfl, by simp, fun _ => hid⟩
        · cases h
  refine ⟨first, ?_⟩
  intro path hcp
  obtain ⟨bid, rfl, _⟩ := first
  rw [single_archive hx hd hn ha, hds, envAt_apk hc hlen hm (memberResolver_default hda hslash), single_elf,
    envAt_elf hcp]
  exact moved_offset _ _ _ _ (Elf.sameReads_mem (by omega) _) _

/-! ### Whole calls, with histories -/

theorem fresh_single [DecidableEq M] {cfg : Settings M K} (hb : DispatchByName cfg) (har : cfg.autoReload = true)
    {k : Known M} (hlen : ∀ m data, k.contents m = .ok (.ok data) → data.length < 2 ^ 63)
    {s : State M K} (hr : Reachable cfg (fun s w c => Orderly cfg k s w c ∧ NotCaching c) s) (w : World M)
    (src : Source) (hk : ∀ ks, src ≠ .kernel ks) (input : Input Nat) (hc : w.disk.contents = k.contents)
    (ho : ∀ l, Uses w.maps src l → Fits cfg k w (present w) l) :
    (s.symbolizeSingle cfg w src input).1 = symbolizeSingle (envAt cfg w (present w) w.maps) src input := by
  have hr1 := reachable_mono (ok' := Orderly cfg k) (fun _ _ _ h => h.1) hr
  have hr2 := reachable_mono (ok' := SameContents k.contents) (fun _ _ _ h => orderly_same _ _ _ h) hr1
  have hr3 := reachable_mono (ok' := fun s w c => SameContents k.contents s w c ∧ NotCaching c)
    (fun _ _ _ h => ⟨orderly_same _ _ _ h.1, h.2⟩) hr
  obtain ⟨h1, h2⟩ := uncached_unpinned hr3
  have hv : versions s w = present w := by
    have h3 := h1.present ((loose_reachable hr2).2.elf.trans har) w.disk.stat
    rw [C68_present har hr2 w]
    simp only [versions, h3, present]
  have hm : mapsOf w s.vmas = w.maps := by
    funext pid
    simp [mapsOf, h2]
  have := C68_single_partial hb hlen hr1 w src hk input ⟨hc, by rw [hv, hm]; exact ho⟩
  rw [this, hv, hm]

/-- The files that normalization names are those that are mapped. -/
theorem described_file (env : Normalize.Env) (ha : env.apkToElf = false) (es : List Maps.Entry) (addr off : Nat)
    (m : UserMeta) (h : describe env es addr = .ok (off, m)) :
    (∀ path bid, m = .elf path bid → ∃ e ∈ es, ∃ p, e.pathName = some (.path p) ∧
      path = if env.mapFiles then p.mapsFile else p.symbolicPath) ∧
    (∀ path, m = .apk path → ∃ e ∈ es, ∃ p, e.pathName = some (.path p) ∧ IsArchive p.symbolicPath ∧
      path = if env.mapFiles then p.mapsFile else p.symbolicPath) := by
  unfold describe at h
  cases hx : mappingOf es addr with
  | none => rw [hx] at h; cases h; exact ⟨by intros; contradiction, by intros; contradiction⟩
  | some e =>
    rw [hx] at h
    have hmem : e ∈ es := List.mem_of_find?_eq_some hx
    simp only [describeIn] at h
    split at h
    · cases h
    · cases hn : e.pathName with
      | none => rw [hn] at h; cases h; exact ⟨by intros; contradiction, by intros; contradiction⟩
      | some name =>
        rw [hn] at h
        cases name with
        | component c =>
          simp only at h
          split at h
          · cases h; exact ⟨by intros; contradiction, by intros; contradiction⟩
          · simp only [bind, Except.bind] at h
            split at h
            · cases h
            · split at h
              · cases h
              · split at h
                · cases h; exact ⟨by intros; contradiction, by intros; contradiction⟩
                · split at h
                  · cases h
                  · split at h
                    · cases h; exact ⟨by intros; contradiction, by intros; contradiction⟩
                    · cases h; exact ⟨by intros; contradiction, by intros; contradiction⟩
        | path p =>
          simp only at h
          split at h
          · rename_i harch
            rw [if_neg (by rw [ha]; decide)] at h
            cases h
            refine ⟨by intros; contradiction, ?_⟩
            intro path hp
            cases hp
            exact ⟨e, hmem, p, hn, (isArchive_iff _).mpr harch, rfl⟩
          · simp only [bind, Except.bind] at h
            split at h
            · cases h
            · cases h
              refine ⟨?_, by intros; contradiction⟩
              intro path bid hp
              cases hp
              exact ⟨e, hmem, p, hn, rfl⟩

/-- **C76** (partial as `C75_normalize_partial`) A program normalizes addresses of a process, with a normalizer it
may have used before, and symbolizes the outputs later, with a symbolizer that reads files anew and that it may
have used before: it gets the symbols it had got from symbolizing the addresses themselves.  No file may change
in between, and the normalizer, however it learns of mappings and whether or not it keeps them, knows those of the process. -/
theorem C76_histories_partial [DecidableEq M] (b : Builder) {cfg : Settings M K} (hb : DispatchByName cfg) (har : cfg.autoReload = true)
    {k : Known M} (hlen : ∀ m data, k.contents m = .ok (.ok data) → data.length < 2 ^ 63)
    {vdso : ElfParser} {n : Normalizer M}
    (hn : Spec.Normalize.Reachable (b.build cfg.tools) (Spec.Normalize.Orderly k.contents vdso (b.build cfg.tools)) n)
    {s s' : State M K} (hs : Reachable cfg (fun s w c => Orderly cfg k s w c ∧ NotCaching c) s)
    (hs' : Reachable cfg (fun s w c => Orderly cfg k s w c ∧ NotCaching c) s')
    (w : Normalize.World M) (src : ProcessSource) (hv : src.vdso = true) (hp : src.perfMap = false)
    (hmf : src.mapFiles = false) (sorted : Bool) (addrs : List Nat) {es : List Maps.Entry}
    (hes : w.toSession.maps src.pid = .ok (es.map .ok)) (hl : Listing es) (hne : es ≠ [])
    (hd : ∀ e ∈ es, NoDispatch cfg e)
    (hfit : ∀ l, Uses w.toSession.maps (.process src) l → Fits cfg k w.toSession (present w.toSession) l)
    (ho : Spec.Normalize.Orderly k.contents vdso (b.build cfg.tools) n w ⟨⟨sorted, false, false⟩, src.pid, addrs⟩)
    (hf : Spec.Normalize.VdsoFound (b.build cfg.tools) w src.pid (n.vmas src.pid)) {from_ : Normalize.Source}
    (hsrc : Spec.Normalize.mappingsAt (b.build cfg.tools) w src.pid (n.vmas src.pid) = .ok from_)
    (hprov : Normalize.Provides from_ es addrs)
    (hsort : sorted = true → addrs.Pairwise (· ≤ ·))
    (hok : ∀ a ∈ addrs, ∃ v m,
      describe (Spec.Normalize.envAt (b.build cfg.tools) w ⟨sorted, false, false⟩ src.pid) es a = .ok (v, m))
    (hg : ∀ a ∈ addrs, ¬ Spec.Normalize.InVdsoGap
      (Spec.Normalize.envAt (b.build cfg.tools) w ⟨sorted, false, false⟩ src.pid) es a)
    (hcon : Spec.Normalize.Consistent
      (Spec.Normalize.envAt (b.build cfg.tools) w ⟨sorted, false, false⟩ src.pid) es addrs) :
    ∃ metas outs, (n.normalize (b.build cfg.tools) w ⟨sorted, false, false⟩ src.pid addrs).1 = .ok metas outs ∧
      List.Forall₂ (fun a (o : Nat × Nat) => ∃ m, metas[o.2]? = some m ∧
        ERel Agree (s.symbolizeSingle cfg w.toSession (.process src) (.absAddr a)).1
          (symbolizedLater (fun src input => (s'.symbolizeSingle cfg w.toSession src input).1) (shownBy cfg .unknown)
            src.debugSyms (o.1, m))) addrs outs := by
  obtain ⟨metas, outs, h1, h2⟩ := Normalize.C75_normalize_partial b cfg.tools hn w
    ⟨⟨sorted, false, false⟩, src.pid, addrs⟩ ho hf hsrc es hl hprov hsort hok hg hcon
  refine ⟨metas, outs, h1, ?_⟩
  refine List.Forall₂.imp ?_ h2
  rintro a o ⟨m, hm, hdesc⟩
  refine ⟨m, hm, ?_⟩
  have key := (C76_address cfg (b.build cfg.tools) rfl w (present w.toSession) w.toSession.maps src hv hp
    ⟨sorted, false, false⟩ rfl hmf.symm hes hl hne hd a hdesc).1 hmf
  rw [fresh_single hb har hlen hs w.toSession (.process src) (by intros; simp) (.absAddr a) ho.1 hfit]
  obtain ⟨f1, f2⟩ := described_file _ rfl es a o.1 m hdesc
  cases m with
  | sym x => exact key
  | unknown r => exact key
  | elf path bid =>
    obtain ⟨e, he, p, hpn, hpath⟩ := f1 path bid rfl
    simp only [symbolizedLater] at key ⊢
    rw [fresh_single hb har hlen hs' w.toSession (.elf path src.debugSyms) (by intros; simp) (.fileOffset o.1) ho.1]
    · exact key
    · intro l hul
      cases hul
      have := hfit _ (.process src _ e _ hes (by simpa using he) (.elf p hpn))
      rw [hmf] at this
      rw [hpath]
      exact this
  | apk path =>
    obtain ⟨e, he, p, hpn, harch, hpath⟩ := f2 path rfl
    simp only [symbolizedLater] at key ⊢
    rw [fresh_single hb har hlen hs' w.toSession (.apk path src.debugSyms) (by intros; simp) (.fileOffset o.1) ho.1]
    · exact key
    · intro l hul
      cases hul
      have := hfit _ (.process src _ e _ hes (by simpa using he) (.apk p hpn harch))
      rw [hmf] at this
      rw [hpath]
      exact this

/-! ### Examples -/

/-- What is known of the files in the example. -/
def exKnown : Known Nat where
  contents := (Normalize.exNorm 0 1).disk.contents
  name := fun m => if m = 0 then ascii "/bin/c" else ascii "/bin/z.apk"
  debug := fun _ => .error .notFound
  member := fun _ place member data =>
    memberResolver exSettings (Normalize.exNorm 0 1).toSession (ascii "/bin/z.apk") (ascii "/bin/z.apk") false place member data
  vdso := createVdsoParser (Normalize.exNorm 0 1).toSession 7 0x7f0000 0x7f1000

/-- The process of the example, to be symbolized without debug information and perf map. -/
def exSource : ProcessSource := ⟨7, false, false, false, true⟩

theorem exMaps : (Normalize.exNorm 0 1).toSession.maps 7 = .ok (exEntries.map .ok) := exRich_maps

theorem exFits (l : Lookup) (h : Uses (Normalize.exNorm 0 1).toSession.maps (.process exSource) l) :
    Fits exSettings exKnown (Normalize.exNorm 0 1).toSession (present (Normalize.exNorm 0 1).toSession) l := by
  generalize hs : Source.process exSource = src at h
  cases h with
  | process src items e l h1 h2 h3 =>
    cases hs
    have h1' : (Normalize.exNorm 0 1).toSession.maps 7 = .ok items := h1
    rw [exMaps] at h1'
    cases h1'
    have he : e ∈ exEntries := by simpa using h2
    have hp' : ∀ p, e.pathName = some (.path p) → p.symbolicPath = ascii "/bin/c" ∨ p.symbolicPath = ascii "/bin/z.apk" := by
      intro p hp
      simp only [exEntries, List.mem_cons, List.not_mem_nil, or_false] at he
      rcases he with rfl | rfl | rfl | rfl <;> cases hp <;> simp
    cases h3 with
    | dispatch name _ => trivial
    | apk p hp hx =>
      intro m data hm hc before z hz
      rcases hp' p hp with h | h
      · rw [h] at hx; exact absurd hx (by decide +kernel)
      · show memberResolver _ _ p.symbolicPath p.symbolicPath _ _ _ _ = _
        rw [h]; rfl
    | elf p hp =>
      intro m hm
      refine ⟨?_, by intro h; cases h⟩
      have hm' : (present (Normalize.exNorm 0 1).toSession).elf p.symbolicPath = .ok m := hm
      rcases hp' p hp with h | h <;> rw [h] at hm' ⊢
      · have : (present (Normalize.exNorm 0 1).toSession).elf (ascii "/bin/c") = .ok 0 := by decide +kernel
        rw [this] at hm'; cases hm'; rfl
      · have : (present (Normalize.exNorm 0 1).toSession).elf (ascii "/bin/z.apk") = .ok 1 := by decide +kernel
        rw [this] at hm'; cases hm'; rfl
    | vdso hn hv =>
      simp only [exEntries, List.mem_cons, List.not_mem_nil, or_false] at he
      rcases he with rfl | rfl | rfl | rfl <;> first | rfl | (exact absurd hn (by decide +kernel))
    | perfMap _ _ => trivial
  | _ => cases hs

/-- What normalization has to work with in the example, and what it is to report. -/
def exEnv (apkToElf : Bool) : Normalize.Env :=
  Spec.Normalize.envAt (Normalize.exCfg true) (Normalize.exNorm 0 1) ⟨true, false, apkToElf⟩ 7

def exAddrs : List Nat := [0x1, 0x400008, 0x500008, 0x600028, 0x7f0008]

def exReported : List (Nat × UserMeta) :=
  [(1, .unknown .unmapped), (8, .elf (ascii "/bin/c") none), (0x500008, .unknown .missingComponent),
    (40, .apk (ascii "/bin/z.apk")), (8, .sym ⟨ascii "f", some (ascii "[vdso]"), 0x1000, 8, some 16, none, []⟩)]

theorem exNotArchive : ¬ (Spec.HasExtension (ascii "/bin/c") (ascii "apk") ∨ Spec.HasExtension (ascii "/bin/c") (ascii "zip")) := by
  rw [← isArchive_iff]
  unfold IsArchive
  decide +kernel

theorem exArchive : Spec.HasExtension (ascii "/bin/z.apk") (ascii "apk") ∨ Spec.HasExtension (ascii "/bin/z.apk") (ascii "zip") := by
  rw [← isArchive_iff]
  unfold IsArchive
  decide +kernel

set_option maxRecDepth 20000 in
theorem exDescribed : exAddrs.map (describe (exEnv false) exEntries) = exReported.map .ok := by
  have h1 : describe (exEnv false) exEntries 0x1 = .ok (1, .unknown .unmapped) := rfl
  have h2 : describe (exEnv false) exEntries 0x400008 = .ok (8, .elf (ascii "/bin/c") none) := by
    have : mappingOf exEntries 0x400008 = exEntries[0]? := by decide +kernel
    unfold describe
    rw [this]
    simp only [exEntries, List.getElem?_cons_zero, describeIn]
    rw [if_neg (by decide), if_neg exNotArchive]
    rw [show Spec.Normalize.buildIdOf (exEnv false) _ _ = .ok none by decide +kernel]
    rfl
  have h3 : describe (exEnv false) exEntries 0x500008 = .ok (0x500008, .unknown .missingComponent) := by
    have : mappingOf exEntries 0x500008 = exEntries[1]? := by decide +kernel
    unfold describe
    rw [this]
    rfl
  have h4 : describe (exEnv false) exEntries 0x600028 = .ok (40, .apk (ascii "/bin/z.apk")) := by
    have : mappingOf exEntries 0x600028 = exEntries[2]? := by decide +kernel
    unfold describe
    rw [this]
    simp only [exEntries, List.getElem?_cons_zero, List.getElem?_cons_succ, describeIn]
    rw [if_neg (by decide), if_pos exArchive]
    rfl
  have h5 : describe (exEnv false) exEntries 0x7f0008 =
      .ok (8, .sym ⟨ascii "f", some (ascii "[vdso]"), 0x1000, 8, some 16, none, []⟩) := by
    have : mappingOf exEntries 0x7f0008 = exEntries[3]? := by decide +kernel
    unfold describe
    rw [this]
    decide +kernel
  simp only [exAddrs, exReported, List.map_cons, List.map_nil, h1, h2, h3, h4, h5]

theorem exDescribe (a : Nat) (ha : a ∈ exAddrs) :
    ∃ o ∈ exReported, describe (exEnv false) exEntries a = .ok o := by
  have : describe (exEnv false) exEntries a ∈ exAddrs.map (describe (exEnv false) exEntries) := List.mem_map_of_mem ha
  rw [exDescribed] at this
  obtain ⟨o, h1, h2⟩ := List.mem_map.mp this
  exact ⟨o, h1, h2.symm⟩

set_option maxRecDepth 20000 in
theorem exNoGap (a : Nat) (ha : a ∈ exAddrs) : ¬ Spec.Normalize.InVdsoGap (exEnv false) exEntries a := by
  rintro ⟨e, virt, reason, h1, h2, parser, h3, h4, h5⟩
  obtain ⟨o, ho, hd⟩ := exDescribe a ha
  unfold describe at hd
  rw [h1] at hd
  simp only [describeIn] at hd
  split at hd
  · cases hd
  · rw [h2] at hd
    simp only [ne_eq, not_true_eq_false, if_false, h3, h4, h5, bind, Except.bind] at hd
    cases hd
    have hv : ∀ a ∈ exAddrs, (mappingOf exEntries a).bind (·.pathName) = some (.component (ascii "[vdso]")) → a = 0x7f0008 := by
      decide +kernel
    have := hv a ha (by rw [h1]; exact h2)
    subst this
    revert ho
    simp [exReported]

theorem exConsistent : Spec.Normalize.Consistent (exEnv false) exEntries exAddrs := by
  intro a ha b hb v w m n h1 h2 h3 h4
  obtain ⟨o, ho, hd⟩ := exDescribe a ha
  obtain ⟨o', ho', hd'⟩ := exDescribe b hb
  rw [h1] at hd
  rw [h2] at hd'
  cases hd
  cases hd'
  have : ∀ x ∈ exReported, ∀ y ∈ exReported, Spec.Normalize.fileOf x.2 ≠ none →
      Spec.Normalize.fileOf x.2 = Spec.Normalize.fileOf y.2 → x.2 = y.2 := by decide +kernel
  exact this _ ho _ ho' h3 h4

theorem exSmall (m : Nat) (data : Bytes) (h : exKnown.contents m = .ok (.ok data)) : data.length < 2 ^ 63 := by
  have : ∀ m ∈ [0, 1, 3, 4], ∀ data, exKnown.contents m = .ok (.ok data) → data.length < 2 ^ 63 := by
    intro m hm data h
    simp only [List.mem_cons, List.not_mem_nil, or_false] at hm
    rcases hm with rfl | rfl | rfl | rfl <;> (have := Except.ok.inj (Except.ok.inj h); subst this; decide +kernel)
  by_cases hm : m ∈ [0, 1, 3, 4]
  · exact this m hm data h
  · simp only [List.mem_cons, List.not_mem_nil, or_false, not_or] at hm
    simp [exKnown, Normalize.exNorm, hm] at h

/-- The normalizer and the symbolizers may have been used before. -/
def exNormalizer : Normalizer Nat :=
  ((Normalizer.new : Normalizer Nat).normalize (Normalize.exCfg true) (Normalize.exNorm 0 1) ⟨false, false, true⟩ 7
    [0x400008, 0x600028]).2

def exSymbolizer : State Nat _root_.Unit :=
  after exSettings (Normalize.exNorm 0 1).toSession (State.new exSettings)
    (.symbolizeSingle (.process exSource) (.absAddr 0x600028))

theorem exSymbolizer_reachable : Reachable exSettings (fun s w c => Orderly exSettings exKnown s w c ∧ NotCaching c) exSymbolizer :=
  .call _ _ _ .new ⟨⟨rfl, exFits⟩, trivial⟩

/-- All conditions of the theorem are met in the example. -/
example : ∃ metas outs,
    (exNormalizer.normalize (Normalize.exCfg true) (Normalize.exNorm 0 1) ⟨true, false, false⟩ 7 exAddrs).1 = .ok metas outs ∧
      List.Forall₂ (fun a (o : Nat × Nat) => ∃ m, metas[o.2]? = some m ∧
        ERel Agree (exSymbolizer.symbolizeSingle exSettings (Normalize.exNorm 0 1).toSession (.process exSource) (.absAddr a)).1
          (symbolizedLater (fun src input =>
              ((State.new exSettings).symbolizeSingle exSettings (Normalize.exNorm 0 1).toSession src input).1)
            (shownBy exSettings .unknown) false (o.1, m))) exAddrs outs :=
  C76_histories_partial { Builder.default with cacheBuildIds := true }
    (cfg := exSettings) (by intro d hd; cases hd) rfl (k := exKnown) exSmall (vdso := Normalize.exVdso)
    (n := exNormalizer) (.call Normalizer.new _ ⟨_, _, _⟩ .new (Normalize.exNorm_orderly 0 1 true _ _ _).1)
    exSymbolizer_reachable .new (Normalize.exNorm 0 1) exSource rfl rfl rfl true exAddrs exMaps exEntries_listing
    (by decide) (by intro e _ d hd; cases hd) exFits (Normalize.exNorm_orderly 0 1 true _ _ _).1
    ((Normalize.exNorm_orderly 0 1 true exNormalizer ⟨true, false, false⟩ []).2 _)
    (Normalize.exNorm_maps 0 1 true _) ⟨by decide, .inl rfl⟩ (by intro _; decide +kernel)
    (fun a ha => by
      obtain ⟨o, _, h⟩ := exDescribe a ha
      exact ⟨o.1, o.2, h⟩)
    exNoGap exConsistent

set_option maxRecDepth 20000 in
/-- What is reported, from the process and from what normalization reported. -/
example :
    exAddrs.map (fun a => nameAndModule (symbolizeSingle
      (envAt exSettings (Normalize.exNorm 0 1).toSession (present (Normalize.exNorm 0 1).toSession)
        (Normalize.exNorm 0 1).toSession.maps) (.process exSource) (.absAddr a))) =
    exReported.map (fun o => nameAndModule (symbolizedLater (symbolizeSingle
      (envAt exSettings (Normalize.exNorm 0 1).toSession (present (Normalize.exNorm 0 1).toSession)
        (Normalize.exNorm 0 1).toSession.maps)) id false o)) ∧
    exReported.map (fun o => nameAndModule (symbolizedLater (symbolizeSingle
      (envAt exSettings (Normalize.exNorm 0 1).toSession (present (Normalize.exNorm 0 1).toSession)
        (Normalize.exNorm 0 1).toSession.maps)) id false o)) =
      [none, some (ascii "f", some (ascii "/bin/c")), none, some (ascii "f", some (ascii "/bin/z.apk!/a")),
        some (ascii "f", some (ascii "[vdso]"))] := by
  constructor <;> decide +kernel

set_option maxRecDepth 20000 in
/-- The member of the archive in the example is `/bin/c`, and aligned. -/
example : describeIn (exEnv true) (exEntries[2]) 0x600028 = .ok (8, .elf (ascii "/bin/z.apk!/a") none) ∧
    HasContents (Normalize.exNorm 0 1).toSession ((present (Normalize.exNorm 0 1).toSession).elf (ascii "/bin/c")) Elf.tinyElf := by
  refine ⟨?_, 0, by decide, rfl⟩
  simp only [exEntries, List.getElem_cons_zero, List.getElem_cons_succ, describeIn]
  rw [if_neg (by decide), if_pos exArchive]
  decide +kernel

end Blazesym.RoundTrip
