import Verif.Session.NormalizerSpec
import Verif.Session.StateProps

/-! # What normalization does to the caches of a normalizer -/

set_option autoImplicit false

namespace Blazesym.Normalize
open Blazesym.Util Blazesym.Maps Blazesym.Cache Blazesym.Spec Blazesym.Spec.Normalize
open Blazesym.Symbolize hiding World Settings Source Env
open Blazesym.Spec.Symbolize (ERel)
open Blazesym.Dwarf (Tools ElfParser elfParse openParser)

variable {M : Type} [DecidableEq M]

/-! ### The walk -/

theorem erel_eq_refl {α : Type} (r : Except Err α) : ERel Eq r r := erel_refl (fun _ => rfl) r

theorem eq_of_erel {α : Type} {a b : Except Err α} (h : ERel Eq a b) : a = b := by
  cases h with
  | error e => rfl
  | ok a b h => rw [h]

theorem next_offers {src src' : Source} {addr : Nat} {o : Option (Except Err Entry)} (h : src.next addr = (o, src')) :
    (∀ e, o = some (.ok e) → Offers src e) ∧ ∀ e, Offers src' e → Offers src e := by
  cases src with
  | list l =>
    cases l with
    | nil =>
      simp only [Source.next, Prod.mk.injEq] at h
      obtain ⟨rfl, rfl⟩ := h
      exact ⟨by simp, fun _ h => h⟩
    | cons x t =>
      simp only [Source.next, Prod.mk.injEq] at h
      obtain ⟨rfl, rfl⟩ := h
      refine ⟨fun e he => ?_, fun e he => List.mem_cons_of_mem _ he⟩
      cases he
      exact List.mem_cons_self
  | query q =>
    simp only [Source.next] at h
    cases hq : q addr with
    | error e => rw [hq] at h; cases h; exact ⟨by simp, fun _ h => h⟩
    | ok o =>
      cases o with
      | none => rw [hq] at h; cases h; exact ⟨by simp, fun _ h => h⟩
      | some e =>
        rw [hq] at h; cases h
        refine ⟨fun e' he => ?_, fun _ h => h⟩
        cases he
        exact ⟨addr, hq⟩

theorem skip_offers {P : Entry → Prop} (addr fuel : Nat) (entry : Entry) (src : Source) (hentry : P entry)
    (hsrc : ∀ e, Offers src e → P e) :
    (∀ e src', skip addr fuel entry src = .entry e src' → P e ∧ ∀ x, Offers src' x → P x) ∧
    (∀ e src', skip addr fuel entry src = .exhausted e src' → P e ∧ ∀ x, Offers src' x → P x) := by
  induction fuel generalizing entry src with
  | zero => exact ⟨by simp [skip], by simp [skip]⟩
  | succ fuel ih =>
    simp only [skip]
    split
    · cases hn : src.next addr with
      | mk o src1 =>
        obtain ⟨h1, h2⟩ := next_offers hn
        cases o with
        | none =>
          simp only
          refine ⟨by simp, ?_⟩
          intro e src' h
          cases h
          exact ⟨hentry, fun x hx => hsrc x (h2 x hx)⟩
        | some r =>
          cases r with
          | error err => exact ⟨by simp, by simp⟩
          | ok e => exact ih e src1 (hsrc e (h1 e rfl)) (fun x hx => hsrc x (h2 x hx))
    · refine ⟨?_, by simp⟩
      intro e src' h
      cases h
      exact ⟨hentry, hsrc⟩

section
variable {C S : Type} {I : C → Prop} {h : HandlerOn C S} {g : Handler S} {P : Entry → Prop}

theorem walkLoop_sim (hu : h.unknown = g.unknown)
    (he : ∀ addr entry s, P entry → Sim I Eq (h.entryAddr addr entry s) (g.entryAddr addr entry s))
    (addrs : List Nat) (prev : Nat) (entry : Entry) (src : Source) (s : S) (hentry : P entry)
    (hsrc : ∀ e, Offers src e → P e) :
    Sim I Eq (walkLoopOn h addrs prev entry src s) (walkLoop g addrs prev entry src s) := by
  induction addrs generalizing prev entry src s with
  | nil => exact Sim.lift (erel_eq_refl _)
  | cons addr rest ih =>
    simp only [walkLoopOn, walkLoop]
    split
    · exact Sim.lift (erel_eq_refl _)
    · obtain ⟨h1, h2⟩ := skip_offers addr src.fuel entry src hentry hsrc
      cases hk : skip addr src.fuel entry src with
      | diverged => exact Sim.lift (erel_eq_refl _)
      | failed e => exact Sim.lift (erel_eq_refl _)
      | exhausted e src' =>
        obtain ⟨a, b⟩ := h2 e src' hk
        simp only [hu]
        exact ih addr e src' _ a b
      | entry e src' =>
        obtain ⟨a, b⟩ := h1 e src' hk
        simp only [hu]
        split
        · exact ih addr e src' _ a b
        · refine Sim.bind (he addr e s a) (fun err herr => by simp only [herr]) ?_
          intro x y hy hxy
          subst hxy
          simp only [hy]
          exact ih addr e src' _ a b

theorem walk_sim (hu : h.unknown = g.unknown)
    (he : ∀ addr entry s, P entry → Sim I Eq (h.entryAddr addr entry s) (g.entryAddr addr entry s))
    (addrs : List Nat) (src : Source) (s : S) (hsrc : ∀ e, Offers src e → P e) :
    Sim I Eq (walkOn h addrs src s) (walk g addrs src s) := by
  unfold walkOn walk
  simp only
  cases hn : src.next (addrs.head?.getD 0) with
  | mk o src' =>
    obtain ⟨h1, h2⟩ := next_offers hn
    cases o with
    | none => exact Sim.lift (erel_eq_refl _)
    | some r =>
      cases r with
      | error err => exact Sim.lift (erel_eq_refl _)
      | ok e => exact walkLoop_sim hu he addrs _ e src' s (hsrc e (h1 e rfl)) fun x hx => hsrc x (h2 x hx)

end

/-! ### Caches -/

/-- What is kept about a file that is used in one version per path. -/
structure Clean {T : Type} (contents : M → Except Err (Except Err Bytes)) (Val : M → Except Err Bytes → T → Prop)
    (s : FileCache Bytes M (Except Err Bytes) T) : Prop where
  faithful : Faithful contents Val s
  pins : NoPins s
  auto : s.autoReload = true

theorem Clean.new {T : Type} (contents : M → Except Err (Except Err Bytes)) (Val : M → Except Err Bytes → T → Prop) :
    Clean contents Val (FileCache.new true) := ⟨faithful_new _ _ _, noPins_new _, rfl⟩

theorem Clean.effective {T : Type} {contents : M → Except Err (Except Err Bytes)}
    {Val : M → Except Err Bytes → T → Prop} {s : FileCache Bytes M (Except Err Bytes) T} (h : Clean contents Val s)
    (stat : Bytes → Except Err M) (p : Bytes) : effective s stat p = stat p := by
  rw [h.pins.present h.auto]

theorem Clean.frame {T : Type} {contents : M → Except Err (Except Err Bytes)}
    {Val : M → Except Err Bytes → T → Prop} {s s' : FileCache Bytes M (Except Err Bytes) T} (h : Clean contents Val s)
    {stat : Bytes → Except Err M} (hf : Frame stat s s') (hs : Faithful contents Val s') : Clean contents Val s' :=
  ⟨hs, h.pins.frame hf, by rw [hf.autoReload]; exact h.auto⟩

/-- What is kept for a file: its build ID. -/
def IdVal (t : Tools) (_ : M) (f : Except Err Bytes) (v : Option Bytes) : Prop := fileBuildId t [] f = .ok v

theorem fileBuildId_path (t : Tools) (path : Bytes) : fileBuildId t path = fileBuildId t [] := by
  funext f
  cases f <;> rfl

theorem readBuildIdOn_clean {cfg : Settings} (hcfg : cfg.cacheBuildIds = true → cfg.buildIds = true) {w : World M}
    {s : FileCache Bytes M (Except Err Bytes) (Option Bytes)}
    (hs : Clean w.disk.contents (IdVal cfg.tools) s) (path : Bytes) :
    (readBuildIdOn cfg w path s).1 = buildIdAt cfg w path ∧
    Clean w.disk.contents (IdVal cfg.tools) (readBuildIdOn cfg w path s).2 := by
  unfold readBuildIdOn buildIdAt
  by_cases hb : cfg.buildIds = true
  · rw [if_pos hb, if_pos hb]
    by_cases hc : cfg.cacheBuildIds = true
    · rw [if_pos hc, fileBuildId_path]
      obtain ⟨h1, h2, h3⟩ := resolve_faithful (create := fileBuildId cfg.tools []) hs.faithful path
      refine ⟨?_, hs.frame h3 h2⟩
      rw [h1, hs.effective]
      unfold ofVersion contentsAt
      cases w.disk.stat path with
      | error e => rfl
      | ok m =>
        simp only
        cases w.disk.contents m with
        | error e => rfl
        | ok f => cases f <;> rfl
    · rw [if_neg hc]
      unfold openParser Disk.opened contentsAt
      cases w.disk.stat path with
      | error e => exact ⟨rfl, hs⟩
      | ok m =>
        simp only
        cases w.disk.contents m with
        | error e => exact ⟨rfl, hs⟩
        | ok f => cases f <;> exact ⟨rfl, hs⟩
  · have hc : ¬ cfg.cacheBuildIds = true := fun h => hb (hcfg h)
    rw [if_neg hb, if_neg hb, if_neg hc]
    exact ⟨rfl, hs⟩

/-! ### Archives -/

/-- What is kept for an archive: its contents, and the build IDs of its members. -/
def ApkVal (t : Tools) (_ : M) (f : Except Err Bytes) (v : Bytes × MemberIds) : Prop :=
  f = .ok v.1 ∧ Zip.Fresh v.1 (fun place _ data => mmapBuildId t place data) v.2

theorem fresh_insert {R : Type} {contents : Bytes} {d : Nat → Bytes → Bytes → Except Err R} {cache : Zip.MemberCache R}
    (hf : Zip.Fresh contents d cache) {items : List (Except Err Zip.Entry)} {off : Nat} {e : Zip.Entry} {data : Bytes}
    (he : Zip.entries (Mmap.map contents).deref = .ok items) (hm : Zip.findMember off items = .ok (some e))
    (hd : Zip.memberData (Mmap.map contents) e = .ok data) :
    (cache.getOrTryInsert (e.dataOffset, e.dataOffset + e.data.length) (fun _ => d e.dataOffset e.path data)).1 =
      d e.dataOffset e.path data ∧
    Zip.Fresh contents d
      (cache.getOrTryInsert (e.dataOffset, e.dataOffset + e.data.length) (fun _ => d e.dataOffset e.path data)).2 := by
  unfold InsertMap.getOrTryInsert
  cases hg : InsertMap.find cache.pairs (e.dataOffset, e.dataOffset + e.data.length) with
  | some r => exact ⟨(hf items off e r data he hm hg hd).symm, hf⟩
  | none =>
    cases hr : d e.dataOffset e.path data with
    | error err => exact ⟨rfl, hf⟩
    | ok r =>
      refine ⟨rfl, ?_⟩
      intro items' off' e' r' data' he' hm' hg' hd'
      have : items' = items := by rw [he] at he'; simpa using he'.symm
      subst this
      unfold InsertMap.get at hg'
      simp only [InsertMap.find] at hg'
      split at hg'
      · rename_i hk
        simp only [Prod.mk.injEq] at hk
        have hee : e = e' := Zip.findMember_bounds hm hm' hk.1 (by omega)
        subst hee
        have hdd : data = data' := by rw [hd] at hd'; simpa using hd'
        subst hdd
        have : r = r' := by simpa using hg'
        rw [← this]; exact hr
      · exact hf items' off' e' r' data' he' hm' hg' hd'

theorem translateIn_fresh (cfg : Settings) (data path : Bytes) (off : Nat) (ids : MemberIds)
    (hf : Zip.Fresh data (fun place _ d => mmapBuildId cfg.tools place d) ids) :
    (translateIn cfg data path off ids).1 =
      Zip.translateApkToElf data cfg.buildIds (mmapBuildId cfg.tools) path off ∧
    Zip.Fresh data (fun place _ d => mmapBuildId cfg.tools place d) (translateIn cfg data path off ids).2 := by
  unfold translateIn Zip.translateApkToElf
  simp only
  cases he : Zip.entries (Mmap.map data).deref with
  | error e => exact ⟨rfl, hf⟩
  | ok items =>
    simp only [bind, Except.bind]
    cases hm : Zip.findMember off items with
    | error e => exact ⟨rfl, hf⟩
    | ok o =>
      cases o with
      | none => exact ⟨rfl, hf⟩
      | some e =>
        simp only
        unfold memberBuildId
        by_cases hb : cfg.buildIds = true
        · rw [if_pos hb]
          cases hd : Zip.memberData (Mmap.map data) e with
          | error err => simp only [hb, if_true]; exact ⟨trivial, hf⟩
          | ok d =>
            simp only [hb, if_true]
            by_cases hc : cfg.cacheBuildIds = true
            · rw [if_pos hc]
              obtain ⟨h1, h2⟩ := fresh_insert hf he hm hd
              cases hr : InsertMap.getOrTryInsert ids (e.dataOffset, e.dataOffset + e.data.length)
                  (fun _ => mmapBuildId cfg.tools e.dataOffset d) with
              | mk r ids' =>
                simp only [hr] at h1 h2
                subst h1
                cases mmapBuildId cfg.tools e.dataOffset d with
                | error err => exact ⟨rfl, h2⟩
                | ok id => exact ⟨rfl, h2⟩
            · rw [if_neg hc]
              cases mmapBuildId cfg.tools e.dataOffset d with
              | error err => exact ⟨rfl, hf⟩
              | ok id => exact ⟨rfl, hf⟩
        · have hb' : cfg.buildIds = false := by simpa using hb
          simp only [hb', Bool.false_eq_true, if_false]
          exact ⟨rfl, hf⟩

theorem apkOpen_ok {f : Except Err Bytes} {v : Bytes × MemberIds} (h : apkOpen f = .ok v) :
    f = .ok v.1 ∧ v.2 = InsertMap.empty := by
  unfold apkOpen at h
  cases f with
  | error e => cases h
  | ok data =>
    simp only at h
    cases hc : Zip.findCd (Mmap.map data).deref with
    | error e => rw [hc] at h; cases h
    | ok c => rw [hc] at h; cases h; exact ⟨rfl, rfl⟩

theorem translate_no_cd {data : Bytes} {e : Err} (h : apkOpen (.ok data) = .error e) (ids : Bool)
    (d : Nat → Bytes → Except Err (Option Bytes)) (path : Bytes) (off : Nat) :
    Zip.translateApkToElf data ids d path off = .error e := by
  unfold apkOpen at h
  simp only at h
  unfold Zip.translateApkToElf Zip.entries
  cases hc : Zip.findCd (Mmap.map data).deref with
  | error e' =>
    rw [hc] at h
    cases h
    simp only [hc, bind, Except.bind]
  | ok c => rw [hc] at h; cases h

theorem translateOn_clean {cfg : Settings} {w : World M}
    {s : FileCache Bytes M (Except Err Bytes) (Bytes × MemberIds)}
    (hs : Clean w.disk.contents (ApkVal cfg.tools) s) (off : Nat) (path : Bytes) :
    (translateOn cfg w off path s).1 = memberAt cfg w off path ∧
    Clean w.disk.contents (ApkVal cfg.tools) (translateOn cfg w off path s).2 := by
  unfold memberAt contentsAt
  obtain ⟨h1, h2, h3⟩ := entry_faithful hs.faithful path
  rw [hs.effective] at h1 h2 h3
  unfold translateOn
  cases he : w.disk.stat path with
  | error e =>
    have := h1 e he
    rw [he] at this
    rw [this]
    exact ⟨rfl, hs⟩
  | ok m =>
    simp only
    cases hcm : w.disk.contents m with
    | error e =>
      have := h2 m e he hcm
      rw [he] at this
      rw [this]
      exact ⟨rfl, hs⟩
    | ok f =>
      obtain ⟨e, s', hent, hfile, hg, hs', hfr, _⟩ := h3 m f he hcm
      rw [he] at hent
      rw [hent]
      simp only
      have hcell : ∀ r, cellOr e.value (apkOpen e.file) = r →
          (∀ err, r = .error err → apkOpen f = .error err) ∧ (∀ x, r = .ok x → ApkVal cfg.tools m f x) := by
        intro r hr
        unfold cellOr at hr
        cases hval : e.value with
        | some x =>
          rw [hval] at hr
          simp only at hr
          subst hr
          refine ⟨by simp, fun y hy => ?_⟩
          cases hy
          have := hs'.value m e x hg hval
          rwa [hfile] at this
        | none =>
          rw [hval, hfile] at hr
          simp only at hr
          subst hr
          refine ⟨fun err h => h, fun y hy => ?_⟩
          obtain ⟨ha, hb⟩ := apkOpen_ok hy
          refine ⟨ha, ?_⟩
          rw [hb]
          exact Zip.fresh_empty _ _
      generalize hr : cellOr e.value (apkOpen e.file) = r at hcell ⊢
      obtain ⟨hc1, hc2⟩ := hcell r rfl
      cases r with
      | error err =>
        have := hc1 err rfl
        refine ⟨?_, hs.frame hfr hs'⟩
        cases f with
        | error e' =>
          simp only [apkOpen] at this
          cases this
          rfl
        | ok data =>
          simp only
          rw [translate_no_cd this]
      | ok x =>
        obtain ⟨data, ids⟩ := x
        obtain ⟨hfd, hfresh⟩ := hc2 _ rfl
        simp only at hfd hfresh
        subst hfd
        obtain ⟨g1, g2⟩ := translateIn_fresh cfg data path off ids hfresh
        simp only
        cases hres : translateIn cfg data path off ids with
        | mk r ids' =>
          rw [hres] at g1 g2
          simp only at g1 g2 ⊢
          refine ⟨g1, hs.frame (hfr.trans (setCell_frame _ _ m (data, ids'))) (setCell_faithful hs' m _ ?_)⟩
          intro e' he'
          rw [hg] at he'
          cases he'
          exact ⟨hfile, g2⟩

/-! ### Addresses -/

/-- What holds for a normalizer between calls. -/
structure Sound (cfg : Settings) (contents : M → Except Err (Except Err Bytes)) (vdso : Except Err ElfParser)
    (s : Normalizer M) : Prop where
  apk : Clean contents (ApkVal cfg.tools) s.apk
  ids : Clean contents (IdVal cfg.tools) s.ids
  vdso : ∀ p, s.vdso = some p → vdso = .ok p

theorem sound_new (cfg : Settings) (contents : M → Except Err (Except Err Bytes)) (vdso : Except Err ElfParser) :
    Sound cfg contents vdso (Normalizer.new : Normalizer M) :=
  ⟨Clean.new _ _, Clean.new _ _, by intro p h; cases h⟩

/-- It is sound and has these mappings. -/
def SoundAt (cfg : Settings) (contents : M → Except Err (Except Err Bytes)) (vdso : Except Err ElfParser)
    (vmas : Nat → Option (List Entry)) (s : Normalizer M) : Prop := Sound cfg contents vdso s ∧ s.vmas = vmas

variable {cfg : Settings} {w : World M} {opts : Opts} {pid : Nat} {vdso : Except Err ElfParser}
  {vmas : Nat → Option (List Entry)}

theorem add_sim {C : Type} {I : C → Prop} (off : Nat) (key : Bytes) {create : Act C UserMeta}
    {made : Except Err UserMeta} (h : Sim I Eq create made) (s : NState) :
    Sim I Eq (addNormalizedOn off key create s) (addNormalizedOffset off key (fun _ => made) s) := by
  unfold addNormalizedOn addNormalizedOffset
  cases s.metaLookup.lookup key with
  | some idx => exact Sim.lift (erel_eq_refl _)
  | none =>
    simp only
    refine Sim.bind h (fun e he => by simp only [he]) ?_
    intro x y hy hxy
    subst hxy
    simp only [hy]
    exact Sim.lift (erel_eq_refl _)

theorem elfMeta_sim (hcfg : cfg.cacheBuildIds = true → cfg.buildIds = true) (entry : Entry) (path : Bytes) :
    Sim (SoundAt cfg w.disk.contents vdso vmas) Eq (elfMetaOn cfg w entry path)
      (elfMeta (envAt cfg w opts pid) entry path) := by
  unfold elfMetaOn elfMeta
  cases entry.buildId with
  | some b => exact Sim.lift (erel_eq_refl _)
  | none =>
    simp only
    refine Sim.mapResult (R := Eq) (v := buildIdAt cfg w path) ?_ ?_
    · intro s hs
      obtain ⟨h1, h2⟩ := readBuildIdOn_clean hcfg hs.1.ids path
      refine ⟨?_, ⟨⟨hs.1.apk, h2, hs.1.vdso⟩, hs.2⟩⟩
      simp only [on, Act.zoom, h1]
      exact erel_eq_refl _
    · intro r hr
      rw [eq_of_erel hr]
      simp only [envAt]
      cases buildIdAt cfg w path with
      | error e => cases e <;> exact erel_eq_refl _
      | ok b => exact erel_eq_refl _

theorem vdsoAddr_eq (env : Env) (t : Tools) (addr off start stop : Nat) (s : NState) (p : ElfParser)
    (h : env.vdso start stop = .ok (asVdso t p)) :
    vdsoAddr t addr off s p = handleVdsoAddr env addr off start stop s := by
  unfold vdsoAddr handleVdsoAddr
  simp only [h]

theorem vdso_sim (start stop addr off : Nat) (s : NState)
    (hv : createVdsoParser w.toSession pid start stop = vdso) :
    Sim (SoundAt cfg w.disk.contents vdso vmas) Eq
      ((on Normalizer.vdso (fun s vdso => { s with vdso }) (vdsoParserOn w pid start stop)).bind
        fun parser => .lift (vdsoAddr cfg.tools addr off s parser))
      (handleVdsoAddr (envAt cfg w opts pid) addr off start stop s) := by
  refine Sim.bind (R := Eq) (v := vdso) ?_ ?_ ?_
  · intro n hn
    simp only [on, Act.zoom, vdsoParserOn]
    cases hc : n.vdso with
    | some p =>
      have := hn.1.vdso p hc
      subst this
      exact ⟨.ok _ _ rfl, ⟨⟨hn.1.apk, hn.1.ids, fun q hq => by simpa using hq⟩, hn.2⟩⟩
    | none =>
      simp only [hv]
      cases vdso with
      | error e => exact ⟨.error _, ⟨⟨hn.1.apk, hn.1.ids, fun q hq => by cases hq⟩, hn.2⟩⟩
      | ok p => exact ⟨.ok _ _ rfl, ⟨⟨hn.1.apk, hn.1.ids, fun q hq => by simpa using hq⟩, hn.2⟩⟩
  · intro e he
    unfold handleVdsoAddr
    simp only [envAt, hv, he]
  · intro x y hy hxy
    subst hxy
    rw [vdsoAddr_eq (envAt cfg w opts pid) cfg.tools addr off start stop s x (by simp only [envAt, hv, hy])]
    exact Sim.lift (erel_eq_refl _)

theorem entry_sim (hcfg : cfg.cacheBuildIds = true → cfg.buildIds = true) (addr : Nat) (entry : Entry) (s : NState)
    (hv : entry.pathName = some (.component (ascii "[vdso]")) →
      createVdsoParser w.toSession pid entry.start entry.stop = vdso) :
    Sim (SoundAt cfg w.disk.contents vdso vmas) Eq (handleEntryAddrOn cfg w opts pid addr entry s)
      (handleEntryAddr (envAt cfg w opts pid) addr entry s) := by
  unfold handleEntryAddrOn handleEntryAddr
  cases addU64 (addr - entry.start) entry.offset with
  | error e => exact Sim.lift (erel_eq_refl _)
  | ok off =>
    simp only
    cases hn : entry.pathName with
    | none => exact Sim.lift (erel_eq_refl _)
    | some pn =>
      cases pn with
      | component c =>
        simp only
        by_cases hc : c = ascii "[vdso]"
        · rw [if_pos hc, if_pos hc]
          subst hc
          exact vdso_sim _ _ _ _ _ (hv hn)
        · rw [if_neg hc, if_neg hc]
          exact Sim.lift (erel_eq_refl _)
      | path ep =>
        simp only
        generalize hpath : (if opts.mapFiles then ep.mapsFile else ep.symbolicPath) = path
        have hpath' : (if (envAt cfg w opts pid).mapFiles then ep.mapsFile else ep.symbolicPath) = path := hpath
        rw [hpath']
        split
        · by_cases ha : opts.apkToElf = true
          · rw [if_pos ha, if_pos (show (envAt cfg w opts pid).apkToElf = true from ha)]
            refine Sim.bind (R := Eq) (v := (envAt cfg w opts pid).translateApk off path)
              ?_ (fun e he => by rw [he]) ?_
            · intro n hn
              obtain ⟨h1, h2⟩ := translateOn_clean hn.1.apk off path
              refine ⟨?_, ⟨⟨h2, hn.1.ids, hn.1.vdso⟩, hn.2⟩⟩
              simp only [on, Act.zoom, h1]
              exact erel_eq_refl _
            · intro x y hy hxy
              subst hxy
              rw [hy]
              unfold apkAddr
              cases x with
              | none => exact Sim.lift (erel_eq_refl _)
              | some r => exact Sim.lift (erel_eq_refl _)
          · rw [if_neg ha, if_neg (show ¬ (envAt cfg w opts pid).apkToElf = true from ha)]
            exact Sim.lift (erel_eq_refl _)
        · exact add_sim off _ (elfMeta_sim (opts := opts) (pid := pid) hcfg entry _) s

/-! ### Calls -/

theorem impl_sim (hcfg : cfg.cacheBuildIds = true → cfg.buildIds = true) (src : Source) (addrs : List Nat)
    (hv : ∀ e, Offers src e → e.pathName = some (.component (ascii "[vdso]")) →
      createVdsoParser w.toSession pid e.start e.stop = vdso) :
    Sim (SoundAt cfg w.disk.contents vdso vmas) Eq (normalizeImpl cfg w opts pid src addrs)
      (normalizeSorted (envAt cfg w opts pid) src addrs) := by
  unfold normalizeImpl normalizeSorted
  refine Sim.bind (walk_sim (g := normHandler (envAt cfg w opts pid))
    (P := fun e => e.pathName = some (.component (ascii "[vdso]")) →
      createVdsoParser w.toSession pid e.start e.stop = vdso) rfl
    (fun addr entry s he => entry_sim hcfg addr entry s he) addrs src NState.init hv)
    (fun e he => by rw [he]) ?_
  intro x y hy hxy
  subst hxy
  rw [hy]
  exact Sim.lift (erel_eq_refl _)

/-! ### Whatever the result -/

section
variable {C S : Type} {I : C → Prop} {h : HandlerOn C S} {P : Entry → Prop}

theorem walkLoop_keeps (he : ∀ addr entry s, P entry → Keeps I (h.entryAddr addr entry s))
    (addrs : List Nat) (prev : Nat) (entry : Entry) (src : Source) (s : S) (hentry : P entry)
    (hsrc : ∀ e, Offers src e → P e) : Keeps I (walkLoopOn h addrs prev entry src s) := by
  induction addrs generalizing prev entry src s with
  | nil => exact Keeps.lift _
  | cons addr rest ih =>
    simp only [walkLoopOn]
    split
    · exact Keeps.lift _
    · obtain ⟨h1, h2⟩ := skip_offers addr src.fuel entry src hentry hsrc
      cases hk : skip addr src.fuel entry src with
      | diverged => exact Keeps.lift _
      | failed e => exact Keeps.lift _
      | exhausted e src' =>
        obtain ⟨a, b⟩ := h2 e src' hk
        exact ih addr e src' _ a b
      | entry e src' =>
        obtain ⟨a, b⟩ := h1 e src' hk
        simp only
        split
        · exact ih addr e src' _ a b
        · exact (he addr e s a).bind fun s => ih addr e src' s a b

theorem walk_keeps (he : ∀ addr entry s, P entry → Keeps I (h.entryAddr addr entry s))
    (addrs : List Nat) (src : Source) (s : S) (hsrc : ∀ e, Offers src e → P e) :
    Keeps I (walkOn h addrs src s) := by
  unfold walkOn
  simp only
  cases hn : src.next (addrs.head?.getD 0) with
  | mk o src' =>
    obtain ⟨h1, h2⟩ := next_offers hn
    cases o with
    | none => exact Keeps.lift _
    | some r =>
      cases r with
      | error err => exact Keeps.lift _
      | ok e => exact walkLoop_keeps he addrs _ e src' s (hsrc e (h1 e rfl)) fun x hx => hsrc x (h2 x hx)

end

/-- A property is kept by everything that is looked up. -/
structure LookupsKeep (I : Normalizer M → Prop) (cfg : Settings) (w : World M) : Prop where
  apk : ∀ off path, Keeps I (on Normalizer.apk (fun s apk => { s with apk }) (translateOn cfg w off path))
  ids : ∀ path, Keeps I (on Normalizer.ids (fun s ids => { s with ids }) (readBuildIdOn cfg w path))

theorem entry_keeps {I : Normalizer M → Prop} (hl : LookupsKeep I cfg w) (addr : Nat) (entry : Entry) (s : NState)
    (hv : entry.pathName = some (.component (ascii "[vdso]")) → Keeps I
      (on Normalizer.vdso (fun s vdso => { s with vdso }) (vdsoParserOn w pid entry.start entry.stop))) :
    Keeps I (handleEntryAddrOn cfg w opts pid addr entry s) := by
  unfold handleEntryAddrOn
  cases addU64 (addr - entry.start) entry.offset with
  | error e => exact Keeps.lift _
  | ok off =>
    simp only
    cases hn : entry.pathName with
    | none => exact Keeps.lift _
    | some pn =>
      cases pn with
      | component c =>
        simp only
        split
        · rename_i hc
          subst hc
          exact (hv hn).bind fun _ => Keeps.lift _
        · exact Keeps.lift _
      | path ep =>
        simp only
        split
        · split
          · exact (hl.apk _ _).bind fun _ => Keeps.lift _
          · exact Keeps.lift _
        · unfold addNormalizedOn
          cases s.metaLookup.lookup (if opts.mapFiles then ep.mapsFile else ep.symbolicPath) with
          | some idx => exact Keeps.lift _
          | none =>
            refine Keeps.bind ?_ fun _ => Keeps.lift _
            unfold elfMetaOn
            cases entry.buildId with
            | some b => exact Keeps.lift _
            | none => exact (hl.ids _).mapResult _

theorem impl_keeps {I : Normalizer M → Prop} (hl : LookupsKeep I cfg w) (src : Source) (addrs : List Nat)
    (hv : ∀ e, Offers src e → e.pathName = some (.component (ascii "[vdso]")) → Keeps I
      (on Normalizer.vdso (fun s vdso => { s with vdso }) (vdsoParserOn w pid e.start e.stop))) :
    Keeps I (normalizeImpl cfg w opts pid src addrs) := by
  unfold normalizeImpl
  exact (walk_keeps (h := handlerOn cfg w opts pid)
    (fun addr entry s he => entry_keeps hl addr entry s he) addrs src NState.init hv).bind
      fun _ => Keeps.lift _

theorem sound_lookups (hcfg : cfg.cacheBuildIds = true → cfg.buildIds = true) :
    LookupsKeep (Sound cfg w.disk.contents vdso) cfg w := by
  refine ⟨fun off path s hs => ?_, fun path s hs => ?_⟩
  · exact ⟨(translateOn_clean hs.apk off path).2, hs.ids, hs.vdso⟩
  · exact ⟨hs.apk, (readBuildIdOn_clean hcfg hs.ids path).2, hs.vdso⟩

theorem sound_vdso (start stop : Nat)
    (hv : ∀ p, createVdsoParser w.toSession pid start stop = .ok p → vdso = .ok p) :
    Keeps (Sound cfg w.disk.contents vdso)
      (on Normalizer.vdso (fun s vdso => { s with vdso }) (vdsoParserOn w pid start stop)) := by
  intro n hn
  simp only [on, Act.zoom, vdsoParserOn]
  cases hc : n.vdso with
  | some p => exact ⟨hn.apk, hn.ids, fun q hq => hn.vdso q (by rw [hc]; exact hq)⟩
  | none =>
    cases hp : createVdsoParser w.toSession pid start stop with
    | error e => exact ⟨hn.apk, hn.ids, fun q hq => by cases hq⟩
    | ok p => exact ⟨hn.apk, hn.ids, fun q hq => by cases hq; exact hv p hp⟩

/-- The kept mappings do not change. -/
theorem vmas_lookups (v : Nat → Option (List Entry)) : LookupsKeep (fun s => s.vmas = v) cfg w :=
  ⟨fun _ _ _ hs => hs, fun _ _ hs => hs⟩

theorem vmas_vdso (v : Nat → Option (List Entry)) (start stop : Nat) : Keeps (fun s : Normalizer M => s.vmas = v)
    (on Normalizer.vdso (fun s vdso => { s with vdso }) (vdsoParserOn w pid start stop)) := fun _ hs => hs

theorem sourceOn_cases (s : Normalizer M) :
    (∃ e, mappingsAt cfg w pid (s.vmas pid) = .error e ∧ sourceOn cfg w pid s = (.error e, s)) ∨
    ∃ src kept, entriesFor (setupOf cfg w pid) (w.budget pid) (s.vmas pid) = .ok (src, kept) ∧
      mappingsAt cfg w pid (s.vmas pid) = .ok src ∧
      sourceOn cfg w pid s = (.ok src, { s with vmas := fun p => if p = pid then kept else s.vmas p }) := by
  unfold mappingsAt sourceOn
  cases entriesFor (setupOf cfg w pid) (w.budget pid) (s.vmas pid) with
  | error e => exact Or.inl ⟨e, rfl, rfl⟩
  | ok r => exact Or.inr ⟨r.1, r.2, rfl, rfl, rfl⟩

theorem iter_exact (hcfg : cfg.cacheBuildIds = true → cfg.buildIds = true) {s : Normalizer M}
    (hs : Sound cfg w.disk.contents vdso s)
    (hv : ∀ src e, mappingsAt cfg w pid (s.vmas pid) = .ok src → Offers src e →
      e.pathName = some (.component (ascii "[vdso]")) →
      createVdsoParser w.toSession pid e.start e.stop = vdso) (addrs : List Nat) :
    (normalizeIter cfg w opts pid addrs s).1 =
      match mappingsAt cfg w pid (s.vmas pid) with
      | .error e => .error e
      | .ok src => normalizeSorted (envAt cfg w opts pid) src addrs := by
  unfold normalizeIter Act.bind
  rcases sourceOn_cases (cfg := cfg) (w := w) (pid := pid) s with ⟨e, h1, h2⟩ | ⟨src, kept, _, h1, h2⟩
  · rw [h1, h2]
  · rw [h1, h2]
    simp only
    refine eq_of_erel (impl_sim (vdso := vdso)
      (vmas := fun p => if p = pid then kept else s.vmas p) hcfg src addrs ?_
      { s with vmas := fun p => if p = pid then kept else s.vmas p } ⟨⟨hs.apk, hs.ids, hs.vdso⟩, rfl⟩).1
    exact fun e he hn => hv src e h1 he hn

theorem iter_sound (hcfg : cfg.cacheBuildIds = true → cfg.buildIds = true) {s : Normalizer M}
    {vdso : ElfParser} (hs : Sound cfg w.disk.contents (.ok vdso) s) (hv : VdsoIs vdso cfg w pid (s.vmas pid))
    (addrs : List Nat) :
    Sound cfg w.disk.contents (.ok vdso) (normalizeIter cfg w opts pid addrs s).2 := by
  unfold normalizeIter Act.bind
  rcases sourceOn_cases (cfg := cfg) (w := w) (pid := pid) s with ⟨e, h1, h2⟩ | ⟨src, kept, _, h1, h2⟩
  · rw [h2]; exact hs
  · rw [h2]
    exact impl_keeps (sound_lookups hcfg) src addrs (fun e he hn => sound_vdso _ _ fun p hp => by rw [hv src e h1 he hn p hp]) _
      ⟨hs.apk, hs.ids, hs.vdso⟩

theorem iter_vmas (s : Normalizer M) (addrs : List Nat) :
    (∃ e, mappingsAt cfg w pid (s.vmas pid) = .error e ∧ (normalizeIter cfg w opts pid addrs s).2 = s) ∨
    ∃ src kept, entriesFor (setupOf cfg w pid) (w.budget pid) (s.vmas pid) = .ok (src, kept) ∧
      (normalizeIter cfg w opts pid addrs s).2.vmas = fun p => if p = pid then kept else s.vmas p := by
  unfold normalizeIter Act.bind
  rcases sourceOn_cases (cfg := cfg) (w := w) (pid := pid) s with ⟨e, h1, h2⟩ | ⟨src, kept, h0, h1, h2⟩
  · rw [h2]; exact Or.inl ⟨e, h1, rfl⟩
  · rw [h2]
    exact Or.inr ⟨src, kept, h0, impl_keeps (vmas_lookups _) src addrs (fun e _ _ => vmas_vdso _ _ _) _ rfl⟩

/-- The state after a call. -/
theorem normalize_state (s : Normalizer M) (addrs : List Nat) :
    ∃ l, (s.normalize cfg w opts pid addrs).2 = (normalizeIter cfg w opts pid l s).2 := by
  unfold Normalizer.normalize
  split
  · exact ⟨addrs, rfl⟩
  · exact ⟨(sortWithIdx addrs).map Prod.fst, rfl⟩

theorem vdso_found {vdso : ElfParser} {kept : Option (List Entry)} (hv : VdsoIs vdso cfg w pid kept)
    (hf : VdsoFound cfg w pid kept) (src : Source) (e : Entry) (h1 : mappingsAt cfg w pid kept = .ok src)
    (he : Offers src e) (hn : e.pathName = some (.component (ascii "[vdso]"))) :
    createVdsoParser w.toSession pid e.start e.stop = .ok vdso := by
  obtain ⟨p, hp⟩ := hf src e h1 he hn
  rw [hp, hv src e h1 he hn p hp]

theorem normalize_exact (hcfg : cfg.cacheBuildIds = true → cfg.buildIds = true) {s : Normalizer M}
    (hs : Sound cfg w.disk.contents vdso s)
    (hv : ∀ src e, mappingsAt cfg w pid (s.vmas pid) = .ok src → Offers src e →
      e.pathName = some (.component (ascii "[vdso]")) →
      createVdsoParser w.toSession pid e.start e.stop = vdso) (addrs : List Nat) :
    (s.normalize cfg w opts pid addrs).1 =
      match mappingsAt cfg w pid (s.vmas pid) with
      | .error e => .err e
      | .ok src => normalizeUserAddrs (envAt cfg w opts pid) opts.sortedAddrs src addrs := by
  unfold Normalizer.normalize normalizeUserAddrs
  by_cases ho : opts.sortedAddrs = true
  · rw [if_pos ho]
    simp only [iter_exact hcfg hs hv]
    cases mappingsAt cfg w pid (s.vmas pid) with
    | error e => rfl
    | ok src =>
      simp only [ho, if_true]
      cases normalizeSorted (envAt cfg w opts pid) src addrs with
      | error e => rfl
      | ok r => rfl
  · rw [if_neg ho]
    simp only [iter_exact hcfg hs hv]
    cases mappingsAt cfg w pid (s.vmas pid) with
    | error e => rfl
    | ok src =>
      simp only [ho]
      unfold withOrderedElems
      simp only
      cases normalizeSorted (envAt cfg w opts pid) src ((sortWithIdx addrs).map Prod.fst) with
      | error e => rfl
      | ok r =>
        simp only
        cases reorder (addrs.length + 1) r.2 (sortWithIdx addrs) <;> rfl

end Blazesym.Normalize
