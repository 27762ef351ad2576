import Verif.Session.NormalizerLemmas
import Verif.Session.AnswerProps
import Verif.Normalize.SourceProps

/-! Property theorems C75: a normalizer and its history. -/

set_option autoImplicit false

namespace Blazesym.Normalize
open Blazesym.Util Blazesym.Maps Blazesym.Cache Blazesym.Spec Blazesym.Spec.Normalize
open Blazesym.Symbolize hiding World Settings Source Env
open Blazesym.Spec.Symbolize (ERel)
open Blazesym.Dwarf (Tools ElfParser elfParse openParser)

variable {M : Type} [DecidableEq M]

theorem build_ids (b : Builder) (t : Tools) (h : (b.build t).cacheBuildIds = true) : (b.build t).buildIds = true := by
  simp only [Builder.build, Bool.and_eq_true] at h
  exact h.1

theorem sound_after {cfg : Settings} (hcfg : cfg.cacheBuildIds = true → cfg.buildIds = true)
    {contents : M → Except Err (Except Err Bytes)} {vdso : ElfParser} {s : Normalizer M}
    (hs : Sound cfg contents (.ok vdso) s) {w : World M} {c : Call} (ho : Orderly contents vdso cfg s w c) :
    Sound cfg contents (.ok vdso) (s.normalize cfg w c.opts c.pid c.addrs).2 := by
  obtain ⟨l, hl⟩ := normalize_state (cfg := cfg) (w := w) (opts := c.opts) (pid := c.pid) s c.addrs
  rw [hl]
  obtain ⟨hc, hv⟩ := ho
  subst hc
  exact iter_sound hcfg hs hv l

theorem sound_reachable {cfg : Settings} (hcfg : cfg.cacheBuildIds = true → cfg.buildIds = true)
    {contents : M → Except Err (Except Err Bytes)} {vdso : ElfParser} {s : Normalizer M}
    {ok : Normalizer M → World M → Call → Prop} (hok : ∀ s w c, ok s w c → Orderly contents vdso cfg s w c)
    (hr : Reachable cfg ok s) : Sound cfg contents (.ok vdso) s := by
  induction hr with
  | new => exact sound_new cfg contents (.ok vdso)
  | call s w c _ ho ih => exact sound_after hcfg ih (hok _ _ _ ho)

theorem sound_later {cfg : Settings} (hcfg : cfg.cacheBuildIds = true → cfg.buildIds = true)
    {contents : M → Except Err (Except Err Bytes)} {vdso : ElfParser} {s s' : Normalizer M}
    (hs : Sound cfg contents (.ok vdso) s) (hl : Later cfg (Orderly contents vdso cfg) s s') : Sound cfg contents (.ok vdso) s' := by
  induction hl with
  | now => exact hs
  | call s w c _ ho ih => exact sound_after hcfg ih ho

/-- **C75** Whatever a normalizer was used for before, it answers as if it read everything anew: the
build IDs and archives of the files that are now at the paths, the vDSO, and the mappings, except for those it
was told to keep. -/
theorem C75_answer (b : Builder) (t : Tools) {contents : M → Except Err (Except Err Bytes)} {vdso : ElfParser}
    {s : Normalizer M} (hr : Reachable (b.build t) (Orderly contents vdso (b.build t)) s) (w : World M) (c : Call)
    (ho : Orderly contents vdso (b.build t) s w c) (hf : VdsoFound (b.build t) w c.pid (s.vmas c.pid)) :
    (s.normalize (b.build t) w c.opts c.pid c.addrs).1 =
      match mappingsAt (b.build t) w c.pid (s.vmas c.pid) with
      | .error e => .err e
      | .ok src => normalizeUserAddrs (envAt (b.build t) w c.opts c.pid) c.opts.sortedAddrs src c.addrs := by
  obtain ⟨hc, hv⟩ := ho
  subst hc
  exact normalize_exact (build_ids b t)
    (sound_reachable (contents := w.disk.contents) (build_ids b t) (fun _ _ _ h => h) hr) (vdso_found hv hf) c.addrs

/-- **C75** The same for a vDSO that is mapped but that cannot be read: a normalizer that was not used before
answers as if it read everything anew, also for the addresses in the vDSO (they make the call fail). -/
theorem C75_no_vdso (b : Builder) (t : Tools) (w : World M) (c : Call) (err : Err)
    (hv : ∀ src e, mappingsAt (b.build t) w c.pid none = .ok src → Offers src e →
      e.pathName = some (.component (ascii "[vdso]")) →
      createVdsoParser w.toSession c.pid e.start e.stop = .error err) :
    ((Normalizer.new : Normalizer M).normalize (b.build t) w c.opts c.pid c.addrs).1 =
      match mappingsAt (b.build t) w c.pid none with
      | .error e => .err e
      | .ok src => normalizeUserAddrs (envAt (b.build t) w c.opts c.pid) c.opts.sortedAddrs src c.addrs :=
  normalize_exact (build_ids b t) (sound_new _ _ (.error err)) hv c.addrs

theorem mappings_uncached {cfg : Settings} (h : cfg.cacheVmas = false) (w : World M) (pid : Nat)
    (kept : Option (List Entry)) : mappingsAt cfg w pid kept = mappingsAt cfg w pid none := by
  unfold mappingsAt entriesFor setupOf
  simp only [h]
  cases cfg.useProcmapQuery <;> cases w.procMaps pid <;> rfl

/-- **C75** A normalizer that does not keep mappings answers like a new one. -/
theorem C75_like_new (b : Builder) (t : Tools) (hb : b.cacheVmas = false)
    {contents : M → Except Err (Except Err Bytes)} {vdso : ElfParser}
    {s : Normalizer M} (hr : Reachable (b.build t) (Orderly contents vdso (b.build t)) s) (w : World M) (c : Call)
    (ho : Orderly contents vdso (b.build t) s w c) (hf : VdsoFound (b.build t) w c.pid none) :
    (s.normalize (b.build t) w c.opts c.pid c.addrs).1 =
      ((Normalizer.new : Normalizer M).normalize (b.build t) w c.opts c.pid c.addrs).1 := by
  have hm : ∀ kept, mappingsAt (b.build t) w c.pid kept = mappingsAt (b.build t) w c.pid none :=
    mappings_uncached hb w c.pid
  have hf' : ∀ kept, VdsoFound (b.build t) w c.pid kept := by
    intro kept
    unfold VdsoFound
    rw [hm]
    exact hf
  have ho' : Orderly contents vdso (b.build t) Normalizer.new w c := by
    refine ⟨ho.1, ?_⟩
    have := ho.2
    unfold VdsoIs at this ⊢
    rw [hm] at this ⊢
    exact this
  rw [C75_answer b t hr w c ho (hf' _), C75_answer b t .new w c ho' (hf' _), hm]
  rfl

/-- **C75** Keeping build IDs makes no difference to any answer. -/
theorem C75_build_id_caching (b : Builder) (t : Tools) (caching : Bool) (hb : b.cacheVmas = false)
    {contents : M → Except Err (Except Err Bytes)} {vdso : ElfParser} {s s' : Normalizer M}
    (hr : Reachable (b.build t) (Orderly contents vdso (b.build t)) s)
    (hr' : Reachable ({ b with cacheBuildIds := caching }.build t)
      (Orderly contents vdso ({ b with cacheBuildIds := caching }.build t)) s') (w : World M) (c : Call)
    (ho : Orderly contents vdso (b.build t) s w c) (hf : VdsoFound (b.build t) w c.pid none) :
    (s.normalize (b.build t) w c.opts c.pid c.addrs).1 =
      (s'.normalize ({ b with cacheBuildIds := caching }.build t) w c.opts c.pid c.addrs).1 := by
  have hm : ∀ kept, mappingsAt (b.build t) w c.pid kept = mappingsAt (b.build t) w c.pid none :=
    mappings_uncached hb w c.pid
  have hm' : ∀ kept, mappingsAt ({ b with cacheBuildIds := caching }.build t) w c.pid kept =
      mappingsAt (b.build t) w c.pid none := fun kept => mappings_uncached (by exact hb) w c.pid kept
  have hf1 : VdsoFound (b.build t) w c.pid (s.vmas c.pid) := by
    unfold VdsoFound; rw [hm]; exact hf
  have hf2 : VdsoFound ({ b with cacheBuildIds := caching }.build t) w c.pid (s'.vmas c.pid) := by
    unfold VdsoFound; rw [hm']; exact hf
  have ho' : Orderly contents vdso ({ b with cacheBuildIds := caching }.build t) s' w c := by
    refine ⟨ho.1, ?_⟩
    have := ho.2
    unfold VdsoIs at this ⊢
    rw [hm] at this
    rw [hm']
    exact this
  rw [C75_answer b t hr w c ho hf1, C75_answer _ t hr' w c ho' hf2, hm, hm']
  rfl

/-! ### Kept mappings -/

theorem vmas_after (cfg : Settings) (w : World M) (opts : Opts) (pid : Nat) (addrs : List Nat) (s : Normalizer M) :
    (∃ e, mappingsAt cfg w pid (s.vmas pid) = .error e ∧ (s.normalize cfg w opts pid addrs).2 = s) ∨
    ∃ src kept, entriesFor (setupOf cfg w pid) (w.budget pid) (s.vmas pid) = .ok (src, kept) ∧
      (s.normalize cfg w opts pid addrs).2.vmas = fun p => if p = pid then kept else s.vmas p := by
  obtain ⟨l, hl⟩ := normalize_state (cfg := cfg) (w := w) (opts := opts) (pid := pid) s addrs
  rw [hl]
  exact iter_vmas s l

/-- Calls about other processes. -/
theorem vmas_other {cfg : Settings} {pid : Nat} {ok : Normalizer M → World M → Call → Prop} {s : Normalizer M}
    (hr : Reachable cfg (fun s w c => ok s w c ∧ c.pid ≠ pid) s) : s.vmas pid = none := by
  induction hr with
  | new => rfl
  | call s w c _ ho ih =>
    rcases vmas_after cfg w c.opts c.pid c.addrs s with ⟨e, _, h⟩ | ⟨src, kept, _, h⟩
    · rw [h]; exact ih
    · rw [h]
      simp only
      rw [if_neg (fun hh => ho.2 hh.symm)]
      exact ih

theorem entriesFor_kept {su : Setup} {budget : Nat} {l : List Entry} {src : Source} {kept : Option (List Entry)}
    (h : entriesFor su budget (some l) = .ok (src, kept)) : kept = some l := by
  obtain ⟨useQuery, cache, ids, pid, maps, kernel⟩ := su
  unfold entriesFor at h
  cases useQuery <;> cases cache <;> cases maps <;> simp at h <;> exact h.2.symm

theorem vmas_kept {cfg : Settings} {pid : Nat} {ok : Normalizer M → World M → Call → Prop} {s s' : Normalizer M}
    {l : List Entry} (hs : s.vmas pid = some l) (hl : Later cfg ok s s') : s'.vmas pid = some l := by
  induction hl with
  | now => exact hs
  | call s w c _ _ ih =>
    rcases vmas_after cfg w c.opts c.pid c.addrs s with ⟨e, _, h⟩ | ⟨src, kept, he, h⟩
    · rw [h]; exact ih
    · rw [h]
      simp only
      split
      · rename_i hp
        rw [← hp, ih] at he
        exact entriesFor_kept he
      · exact ih

theorem entriesFor_all {cfg : Settings} (hc : cfg.cacheVmas = true) (w : World M) (pid : Nat) :
    entriesFor (setupOf cfg w pid) (w.budget pid) none =
      match allMappings cfg w pid with
      | .error e => .error e
      | .ok l => .ok (.list (l.map .ok), some l) := by
  unfold entriesFor allMappings setupOf
  simp only [hc]
  cases w.procMaps pid with
  | error e => cases cfg.useProcmapQuery <;> rfl
  | ok text =>
    cases cfg.useProcmapQuery with
    | true => simp only [if_true, not_true_eq_false, if_false]; rfl
    | false =>
      simp only [Bool.false_eq_true, if_false, not_true_eq_false]
      rfl

/-- **C75** A normalizer that keeps mappings answers all later calls about a process with the mappings
it had at the first call about it that could read them, and everything else as it is now.  (Where the ioctl is
used, the process' `maps` file still has to be there.) -/
theorem C75_kept_mappings (b : Builder) (t : Tools) (hb : b.cacheVmas = true) (pid : Nat)
    {contents : M → Except Err (Except Err Bytes)} {vdso : ElfParser} {s s' : Normalizer M}
    (hr : Reachable (b.build t) (fun s w c => Orderly contents vdso (b.build t) s w c ∧ c.pid ≠ pid) s)
    (w₀ : World M) (opts₀ : Opts) (addrs₀ : List Nat) (ho₀ : Orderly contents vdso (b.build t) s w₀ ⟨opts₀, pid, addrs₀⟩)
    (l : List Entry) (hall : allMappings (b.build t) w₀ pid = .ok l)
    (hl : Later (b.build t) (Orderly contents vdso (b.build t)) (s.normalize (b.build t) w₀ opts₀ pid addrs₀).2 s')
    (w : World M) (opts : Opts) (addrs : List Nat) (ho : Orderly contents vdso (b.build t) s' w ⟨opts, pid, addrs⟩)
    (hf : VdsoFound (b.build t) w pid (some l)) (hm : b.useProcmapQuery = true → ∃ text, w.procMaps pid = .ok text) :
    (s'.normalize (b.build t) w opts pid addrs).1 =
      normalizeUserAddrs (envAt (b.build t) w opts pid) opts.sortedAddrs (.list (l.map .ok)) addrs := by
  have hcv : (b.build t).cacheVmas = true := hb
  have h0 := vmas_other hr
  have h1 : (s.normalize (b.build t) w₀ opts₀ pid addrs₀).2.vmas pid = some l := by
    rcases vmas_after (b.build t) w₀ opts₀ pid addrs₀ s with ⟨e, he, _⟩ | ⟨src, kept, he, h⟩
    · rw [h0] at he
      unfold mappingsAt at he
      rw [entriesFor_all hcv, hall] at he
      cases he
    · rw [h]
      simp only [if_true]
      rw [h0, entriesFor_all hcv, hall] at he
      cases he
      rfl
  have h2 := vmas_kept h1 hl
  have hs : Sound (b.build t) contents (.ok vdso) s' := sound_later (build_ids b t)
    (sound_after (build_ids b t) (sound_reachable (build_ids b t) (fun _ _ _ h => h.1) hr) ho₀) hl
  obtain ⟨hc, hv⟩ := ho
  subst hc
  rw [normalize_exact (build_ids b t) hs (vdso_found hv (by rw [h2]; exact hf)) addrs, h2]
  unfold mappingsAt
  rw [C02_source_cached (setupOf (b.build t) w pid) (w.budget pid) l hcv hm]
  rfl

/-- **C75** If the mappings cannot be read, that is the answer, and nothing changes: the next call tries
again. -/
theorem C75_mappings_error (cfg : Settings) (w : World M) (opts : Opts) (pid : Nat) (addrs : List Nat)
    (s : Normalizer M) (e : Err) (h : mappingsAt cfg w pid (s.vmas pid) = .error e) :
    s.normalize cfg w opts pid addrs = (.err e, s) := by
  have hi : ∀ l, normalizeIter cfg w opts pid l s = (.error e, s) := by
    intro l
    unfold normalizeIter Act.bind
    rcases sourceOn_cases (cfg := cfg) (w := w) (pid := pid) s with ⟨e', h1, h2⟩ | ⟨src, kept, _, h1, h2⟩
    · rw [h] at h1; cases h1; rw [h2]
    · rw [h] at h1; cases h1
  unfold Normalizer.normalize
  split
  · rw [hi]; rfl
  · rw [hi]; rfl

/-! ### What is reported -/

/-- **C75** (partial as `C02_normalize_partial`: not for gaps of the vDSO and not if one file goes with
several records) Every address is reported as documented, from the contents that the files have now. -/
theorem C75_normalize_partial (b : Builder) (t : Tools) {contents : M → Except Err (Except Err Bytes)} {vdso : ElfParser}
    {s : Normalizer M} (hr : Reachable (b.build t) (Orderly contents vdso (b.build t)) s) (w : World M) (c : Call)
    (ho : Orderly contents vdso (b.build t) s w c) (hf : VdsoFound (b.build t) w c.pid (s.vmas c.pid))
    {src : Source} (hsrc : mappingsAt (b.build t) w c.pid (s.vmas c.pid) = .ok src)
    (es : List Entry) (hl : Listing es) (hp : Provides src es c.addrs)
    (hs : c.opts.sortedAddrs = true → c.addrs.Pairwise (· ≤ ·))
    (hok : ∀ a ∈ c.addrs, ∃ v m, describe (envAt (b.build t) w c.opts c.pid) es a = .ok (v, m))
    (hg : ∀ a ∈ c.addrs, ¬ InVdsoGap (envAt (b.build t) w c.opts c.pid) es a)
    (hc : Consistent (envAt (b.build t) w c.opts c.pid) es c.addrs) :
    ∃ metas outs, (s.normalize (b.build t) w c.opts c.pid c.addrs).1 = .ok metas outs ∧
      List.Forall₂ (fun a (o : Nat × Nat) => ∃ m, metas[o.2]? = some m ∧
        describe (envAt (b.build t) w c.opts c.pid) es a = .ok (o.1, m)) c.addrs outs := by
  rw [C75_answer b t hr w c ho hf, hsrc]
  exact C02_normalize_partial _ _ src es c.addrs hl hp hs hok hg hc

/-- **C75** A build ID that cannot be read is left out: for files that are not in archives.  Missing for
the full property: members of archives, see `C75_archive_build_id_wrong`. -/
theorem C75_swallowed_partial (cfg : Settings) (w : World M) (opts : Opts) (pid : Nat) (e : Entry) (p : EntryPath)
    (addr : Nat) (ho : addr - e.start + e.offset < 2 ^ 64) (hn : e.pathName = some (.path p)) (hb : e.buildId = none)
    (hx : ¬ (HasExtension p.symbolicPath (ascii "apk") ∨ HasExtension p.symbolicPath (ascii "zip")))
    (err : Err) (hne : err ≠ .panic)
    (he : buildIdAt cfg w (if opts.mapFiles then p.mapsFile else p.symbolicPath) = .error err) :
    describeIn (envAt cfg w opts pid) e addr =
      .ok (addr - e.start + e.offset, .elf (if opts.mapFiles then p.mapsFile else p.symbolicPath) none) := by
  unfold describeIn
  simp only
  rw [if_neg (by omega), hn]
  simp only
  rw [if_neg hx]
  have : buildIdOf (envAt cfg w opts pid) e (if opts.mapFiles then p.mapsFile else p.symbolicPath) = .ok none := by
    unfold buildIdOf
    rw [hb, show (envAt cfg w opts pid).readBuildId = buildIdAt cfg w from rfl, he]
    cases err <;> first | rfl | exact absurd rfl hne
  have h2 : (if (envAt cfg w opts pid).mapFiles = true then p.mapsFile else p.symbolicPath) =
      (if opts.mapFiles then p.mapsFile else p.symbolicPath) := rfl
  rw [h2, this]
  rfl

/-- **C75** (defect) The documentation says that failures to read build IDs do not make normalization
fail.  They do for members of archives: if the member an address is in is not an ELF file, say, then the whole
call fails (unless build IDs are disabled). -/
theorem C75_archive_build_id_wrong (cfg : Settings) (w : World M) (opts : Opts) (pid : Nat) (e : Entry)
    (p : EntryPath) (addr : Nat) (ha : opts.apkToElf = true) (ho : addr - e.start + e.offset < 2 ^ 64)
    (hn : e.pathName = some (.path p)) (hx : HasExtension p.symbolicPath (ascii "apk"))
    {data : Bytes} (hd : contentsAt w (if opts.mapFiles then p.mapsFile else p.symbolicPath) = .ok data)
    (hlen : data.length < 2 ^ 63) {before : List Zip.Entry} {member : Zip.Entry} (hm : Zip.Members data before member)
    (hw : Zip.Within member (addr - e.start + e.offset)) (hbf : ∀ x ∈ before, ¬ Zip.Within x (addr - e.start + e.offset))
    (err : Err)
    (he : Elf.readBuildId cfg.tools.codec (.mem (4096 + member.dataOffset) member.data) = .error err) :
    (cfg.buildIds = true → describeIn (envAt cfg w opts pid) e addr = .error err) ∧
    (cfg.buildIds = false → e.buildId = none → describeIn (envAt cfg w opts pid) e addr =
      .ok (addr - e.start + e.offset - member.dataOffset,
        .elf (Zip.createApkElfPath (if opts.mapFiles then p.mapsFile else p.symbolicPath) member.path) none)) := by
  obtain ⟨h1, _, h3, _, _⟩ := Zip.C27_translate hlen hm hw hbf
    (fun place data => Elf.readBuildId cfg.tools.codec (.mem (4096 + place) data))
    (if opts.mapFiles then p.mapsFile else p.symbolicPath)
  have key : ∀ r, memberAt cfg w (addr - e.start + e.offset) (if opts.mapFiles then p.mapsFile else p.symbolicPath) = r →
      (envAt cfg w opts pid).translateApk (addr - e.start + e.offset)
        (if (envAt cfg w opts pid).mapFiles = true then p.mapsFile else p.symbolicPath) = r := fun r h => h
  constructor
  · intro hb
    unfold describeIn
    simp only
    rw [if_neg (by omega), hn]
    simp only
    rw [if_pos (.inl hx), if_pos (show (envAt cfg w opts pid).apkToElf = true from ha),
      key (.error err) (by unfold memberAt; rw [hd, hb]; exact h3 err he)]
    rfl
  · intro hb hbe
    unfold describeIn
    simp only
    rw [if_neg (by omega), hn]
    simp only
    rw [if_pos (.inl hx), if_pos (show (envAt cfg w opts pid).apkToElf = true from ha),
      key (.ok (some (addr - e.start + e.offset - member.dataOffset,
        Zip.createApkElfPath (if opts.mapFiles then p.mapsFile else p.symbolicPath) member.path, none)))
        (by unfold memberAt; rw [hd, hb]; exact h1)]
    simp only [bind, Except.bind, hbe]
    rfl

/-! ### Examples -/

/-- The process of `exRich`, with other contents of `/bin/c` and `/bin/z.apk`: versions 3 and 4. -/
def exNorm (c z : Nat) : World Nat where
  toSession := { exRich with
    disk := ⟨fun p => if p = ascii "/bin/c" then .ok c else if p = ascii "/bin/z.apk" then .ok z else .error .notFound,
      fun m => if m = 0 then .ok (.ok Elf.tinyElf) else if m = 1 then .ok (.ok tinyZip)
        else if m = 3 then .ok (.ok Elf.noteElf) else if m = 4 then .ok (.ok Zip.demoZip) else .error .notFound⟩ }
  procmap := fun _ _ => .ok none
  budget := fun _ => 1

/-- The default settings, with or without keeping build IDs. -/
def exCfg (cacheBuildIds : Bool) : Settings := { Builder.default with cacheBuildIds }.build exSettings.tools

/-- The vDSO of the example. -/
def exVdso : ElfParser := ⟨some (ascii "[vdso]"), .mem 0x7f0000 Elf.tinyElf⟩

set_option maxRecDepth 20000 in
theorem exNorm_maps (c z : Nat) (cacheBuildIds : Bool) (kept : Option (List Entry)) :
    mappingsAt (exCfg cacheBuildIds) (exNorm c z) 7 kept = .ok (.list (exEntries.map .ok)) := by
  have h : (exRich.procMaps 7) = .ok exMapsText := rfl
  have h2 : parseFiltered exMapsText 7 = exEntries.map .ok := by
    have := exRich_maps
    unfold Symbolize.World.maps at this
    rw [h] at this
    simpa using this
  unfold mappingsAt entriesFor setupOf exCfg Builder.build Builder.default
  simp only [Bool.false_eq_true, if_false, not_false_eq_true, if_true]
  rw [show (exNorm c z).procMaps 7 = .ok exMapsText from rfl]
  simp only [h2]
  rfl

theorem exNorm_vdso (c z : Nat) (cacheBuildIds : Bool) (kept : Option (List Entry)) (src : Source) (e : Entry)
    (_ : mappingsAt (exCfg cacheBuildIds) (exNorm c z) 7 kept = .ok src) (_ : Offers src e)
    (_ : e.pathName = some (.component (ascii "[vdso]"))) :
    createVdsoParser (exNorm c z).toSession 7 e.start e.stop = .ok exVdso := by
  unfold createVdsoParser
  rw [if_neg (by decide)]
  have : findVdsoMaps (exNorm c z).toSession 0 = .ok (some (0x7f0000, 0x7f1000)) := by
    unfold findVdsoMaps Symbolize.World.maps
    rw [show (exNorm c z).procMaps 0 = .ok exMapsText from rfl]
    decide +kernel
  rw [this]
  rfl

/-- Calls in the example are orderly, whatever is at `/bin/c` and `/bin/z.apk`. -/
theorem exNorm_orderly (c z : Nat) (cacheBuildIds : Bool) (s : Normalizer Nat) (opts : Opts) (addrs : List Nat) :
    Orderly (exNorm 0 1).disk.contents exVdso (exCfg cacheBuildIds) s (exNorm c z) ⟨opts, 7, addrs⟩ ∧
    ∀ kept, VdsoFound (exCfg cacheBuildIds) (exNorm c z) 7 kept := by
  refine ⟨⟨rfl, ?_⟩, ?_⟩
  · intro src e hs ho hn p hp
    have := exNorm_vdso c z cacheBuildIds _ src e hs ho hn
    rw [hp] at this
    cases this
    rfl
  · intro kept src e hs ho hn
    exact ⟨_, exNorm_vdso c z cacheBuildIds _ src e hs ho hn⟩

/-- So there are normalizers with a history to which the theorems apply. -/
example : Reachable (exCfg true) (Orderly (exNorm 0 1).disk.contents exVdso (exCfg true))
    ((Normalizer.new : Normalizer Nat).normalize (exCfg true) (exNorm 0 1) ⟨false, false, true⟩ 7 [0x400008, 0x600028]).2 :=
  .call Normalizer.new (exNorm 0 1) ⟨⟨false, false, true⟩, 7, [0x400008, 0x600028]⟩ .new (exNorm_orderly 0 1 true _ _ _).1

set_option maxRecDepth 20000 in
/-- The build ID that is reported is the one of the file that is there now, also if another one was kept. -/
example :
    (((Normalizer.new : Normalizer Nat).normalize (exCfg true) (exNorm 0 1) ⟨false, false, true⟩ 7 [0x400008]).2.normalize
      (exCfg true) (exNorm 3 1) ⟨true, false, true⟩ 7 [0x1, 0x400008, 0x600028, 0x7f0008]).1 =
    .ok [.unknown .unmapped, .elf (ascii "/bin/c") (some [170, 187, 204]), .elf (ascii "/bin/z.apk!/a") none,
        .sym ⟨ascii "f", some (ascii "[vdso]"), 0x1000, 8, some 16, none, []⟩]
      [(1, 0), (8, 1), (8, 2), (8, 3)] := by
  decide +kernel

/-- In the process of the example, but without a vDSO of its own. -/
def exNoVdso : World Nat :=
  { exNorm 3 1 with
    toSession := { (exNorm 3 1).toSession with
      procMaps := fun pid => if pid = 0 then .ok (ascii "400000-401000 r-xp 00000000 00:00 1 /bin/c\n") else .ok exMapsText } }

set_option maxRecDepth 20000 in
/-- It cannot tell what is in the vDSO of another process. -/
example : (createVdsoParser exNoVdso.toSession 7 0x7f0000 0x7f1000).map ElfParser.module = .error .notFound ∧
    ((Normalizer.new : Normalizer Nat).normalize (exCfg true) exNoVdso ⟨true, false, true⟩ 7 [0x400008]).1 =
      .ok [.elf (ascii "/bin/c") (some [170, 187, 204])] [(8, 0)] ∧
    ((Normalizer.new : Normalizer Nat).normalize (exCfg true) exNoVdso ⟨true, false, true⟩ 7 [0x400008, 0x7f0008]).1 =
      .err .notFound := by
  refine ⟨?_, ?_, ?_⟩ <;> decide +kernel

/-- The process of the example is gone. -/
def exGone : World Nat := { exNorm 0 1 with toSession := { (exNorm 0 1).toSession with procMaps := fun _ => .error .notFound } }

set_option maxRecDepth 20000 in
/-- Mappings that are kept are used also if the process is gone; else normalization fails. -/
example (cfg : Settings) (hc : cfg = { Builder.default with cacheVmas := true }.build exSettings.tools) :
    ((Normalizer.new : Normalizer Nat).normalize cfg (exNorm 0 1) ⟨false, false, true⟩ 7 []).2.vmas 7 = some exEntries ∧
    (((Normalizer.new : Normalizer Nat).normalize cfg (exNorm 0 1) ⟨false, false, true⟩ 7 []).2.normalize
      cfg exGone ⟨false, false, true⟩ 7 [0x400008]).1 = .ok [.elf (ascii "/bin/c") none] [(8, 0)] ∧
    ((Normalizer.new : Normalizer Nat).normalize cfg exGone ⟨false, false, true⟩ 7 [0x400008]).1 = .err .notFound := by
  subst hc
  refine ⟨?_, ?_, ?_⟩ <;> decide +kernel

set_option maxRecDepth 20000 in
/-- The defect: one address in a member that is not an ELF file, and nothing is normalized. -/
example :
    ((Normalizer.new : Normalizer Nat).normalize (exCfg false) (exNorm 0 4) ⟨true, false, true⟩ 7 [0x400008, 0x600020]).1 =
      .err .invalidData ∧
    ((Normalizer.new : Normalizer Nat).normalize (exCfg false) (exNorm 0 4) ⟨false, false, true⟩ 7 [0x400008]).1 =
      .ok [.elf (ascii "/bin/c") none] [(8, 0)] := by
  constructor <;> decide +kernel

end Blazesym.Normalize
