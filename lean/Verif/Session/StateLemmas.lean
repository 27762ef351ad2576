import Verif.Session.StateSpec
import Verif.Session.SimLemmas
import Verif.Session.PreserveLemmas
import Verif.Session.ElfLemmas
import Verif.Zip.ApkCacheProps

/-! # What the lookups of a symbolizer do to its caches -/

set_option autoImplicit false

namespace Blazesym.Symbolize
open Blazesym.Util Blazesym.Maps Blazesym.Normalize Blazesym.Cache Blazesym.Spec Blazesym.Spec.Symbolize
open Blazesym.Dwarf hiding Resolver

variable {M K : Type} [DecidableEq M]

theorem eval_congr {P Pr D : Type} {l l' : P → Except Err Pr} (g : Prog P Pr D)
    (h : ∀ q ∈ g.asked l, l q = l' q) : g.eval l = g.eval l' := by
  induction g with
  | done r => rfl
  | ask p k ih =>
    simp only [Prog.eval, Prog.asked] at h ⊢
    rw [← h p List.mem_cons_self]
    exact ih _ fun q hq => h q (List.mem_cons_of_mem _ hq)

/-! ### One cell -/

theorem setCell_faithful {T : Type} {contents : M → Except Err (Except Err Bytes)}
    {Val : M → Except Err Bytes → T → Prop} {s : FileCache Bytes M (Except Err Bytes) T}
    (hs : Faithful contents Val s) (m : M) (v : T) (h : ∀ e, s.entries.get m = some e → Val m e.file v) :
    Faithful contents Val (setCell s m v) := by
  have hwf : WF (setCell s m v) := by
    have hs := hs.wf
    refine ⟨hs.keysP, InsertMap.keysNodup_update hs.keysM _ _, hs.cur, hs.prev, ?_, ?_⟩
    · intro x e hx
      simp only [setCell, InsertMap.get_update] at hx ⊢
      split at hx
      · rename_i h; subst h
        cases hg : s.entries.get x with
        | none => simp [hg] at hx
        | some e0 =>
          simp [hg] at hx; subst hx; have h := hs.present _ _ hg; exact h
      · exact hs.present _ _ hx
    · intro x hx
      simp only [setCell, InsertMap.get_update] at hx ⊢
      split at hx
      · rename_i h; subst h
        exact hs.absent _ (by simpa using hx)
      · exact hs.absent _ hx
  refine faithful_of_values hs hwf ?_
  intro x ex hx
  simp only [setCell, InsertMap.get_update] at hx
  split at hx
  · rename_i hxm
    subst hxm
    cases hg : s.entries.get x with
    | none => simp [hg] at hx
    | some e0 =>
      simp only [hg, Option.map_some, Option.some.injEq] at hx
      subst hx
      right
      refine ⟨hs.file x e0 hg, ?_⟩
      intro t ht
      simp only [Option.some.injEq] at ht
      subst ht
      exact h e0 hg
  · exact Or.inl ⟨ex, hx, rfl, rfl⟩

theorem setCell_frame {T : Type} (stat : Bytes → Except Err M) (s : FileCache Bytes M (Except Err Bytes) T) (m : M)
    (v : T) : Frame stat s (setCell s m v) := frame_of_cache rfl rfl

/-! ### Archives -/

theorem cached_congr {R : Type} (data : Bytes) (hlen : data.length < 2 ^ 63)
    (d d' : Bool → Nat → Bytes → Bytes → Except Err R) (toVirt : R → Nat → Except Err (Option Nat)) (debugSyms : Bool)
    (h : ∀ before e, Zip.Members data before e →
      d debugSyms e.dataOffset e.path e.data = d' debugSyms e.dataOffset e.path e.data)
    (cache : Zip.MemberCache R) (off : Nat) :
    Zip.cachedApkResolver data d toVirt cache off debugSyms = Zip.cachedApkResolver data d' toVirt cache off debugSyms ∧
    Zip.createApkResolver data (d debugSyms) toVirt off = Zip.createApkResolver data (d' debugSyms) toVirt off := by
  unfold Zip.cachedApkResolver Zip.createApkResolver
  simp only
  cases hi : Zip.entries (Mmap.map data).deref with
  | error e => exact ⟨rfl, rfl⟩
  | ok items =>
    simp only [bind, Except.bind]
    cases hf : Zip.findMember off items with
    | error e => exact ⟨rfl, rfl⟩
    | ok o =>
      cases o with
      | none => exact ⟨rfl, rfl⟩
      | some entry =>
        obtain ⟨before, rest, h1, _, _⟩ := Zip.findMember_some.mp hf
        have hm : Zip.Members data before entry := ⟨rest, by
          rw [C29_map] at hi
          rw [hi, h1]⟩
        obtain ⟨hs, hne⟩ := Zip.members_slice hm
        simp only [Zip.memberData_eq hlen hs hne, h before entry hm, and_self]

/-- What is stored for an archive. -/
def ApkVal (k : Known M) (m : M) (f : Except Err Bytes) (v : Bytes × Zip.MemberCache Resolver) : Prop :=
  f = .ok v.1 ∧ Zip.Fresh v.1 (k.member m) v.2

theorem apkParse_ok {f : Except Err Bytes} {v : Bytes × Zip.MemberCache Resolver} (h : apkParse f = .ok v) :
    f = .ok v.1 ∧ v.2 = InsertMap.empty := by
  unfold apkParse at h
  cases f with
  | error e => cases h
  | ok data =>
    simp only at h
    cases hc : Zip.findCd (Mmap.map data).deref with
    | error e => rw [hc] at h; cases h
    | ok c => rw [hc] at h; cases h; exact ⟨rfl, rfl⟩

/-- Without a central directory nothing is found in an archive. -/
theorem create_no_cd {R : Type} {data : Bytes} {e : Err} (h : apkParse (.ok data) = .error e)
    (d : Nat → Bytes → Bytes → Except Err R) (toVirt : R → Nat → Except Err (Option Nat)) (off : Nat) :
    Zip.createApkResolver data d toVirt off = .error e := by
  unfold apkParse at h
  simp only at h
  unfold Zip.createApkResolver Zip.entries
  cases hc : Zip.findCd (Mmap.map data).deref with
  | error e' =>
    rw [hc] at h
    cases h
    simp only [hc, bind, Except.bind]
  | ok c => rw [hc] at h; cases h

theorem apkOn_exact {cfg : Settings M K} {k : Known M} {w : World M} (hc : w.disk.contents = k.contents)
    (hlen : ∀ m data, k.contents m = .ok (.ok data) → data.length < 2 ^ 63)
    (actual represented : Bytes) (off : Nat) (debugSyms : Bool)
    {s : FileCache Bytes M (Except Err Bytes) (Bytes × Zip.MemberCache Resolver)}
    (hs : Faithful k.contents (ApkVal k) s) (v : Versions M) (hv : v.apk actual = effective s w.disk.stat actual)
    (hf : Fits cfg k w v (.apk actual represented debugSyms))
    (maps : Nat → Except Err (List (Except Err Maps.Entry))) :
    (apkResolverOn cfg w actual represented off debugSyms s).1 =
      (envAt cfg w v maps).apk actual represented off debugSyms ∧
    Faithful k.contents (ApkVal k) (apkResolverOn cfg w actual represented off debugSyms s).2 ∧
    Frame w.disk.stat s (apkResolverOn cfg w actual represented off debugSyms s).2 := by
  simp only [Fits, hv] at hf
  unfold envAt fileOf ofVersion
  simp only [hv]
  have hs0 := hs
  rw [← hc] at hs
  obtain ⟨h1, h2, h3⟩ := entry_faithful hs actual
  unfold apkResolverOn
  cases he : effective s w.disk.stat actual with
  | error e => rw [h1 e he]; exact ⟨rfl, hs0, Frame.refl _ _⟩
  | ok m =>
    simp only
    cases hcm : w.disk.contents m with
    | error e => rw [h2 m e he hcm]; exact ⟨rfl, hs0, Frame.refl _ _⟩
    | ok f =>
      obtain ⟨e, s', hent, hfile, hg, hs', hfr, _⟩ := h3 m f he hcm
      rw [hent]
      simp only
      have hcell : ∀ r, cellOr e.value (apkParse e.file) = r →
          (∀ err, r = .error err → apkParse f = .error err) ∧ (∀ x, r = .ok x → ApkVal k m f x) := by
        intro r hr
        unfold cellOr at hr
        cases hval : e.value with
        | some x =>
          rw [hval] at hr
          simp only at hr
          subst hr
          refine ⟨by simp, fun y hy => ?_⟩
          cases hy
          have := hs'.value m e x hg hval
          rwa [hfile] at this
        | none =>
          rw [hval, hfile] at hr
          simp only at hr
          subst hr
          refine ⟨fun err h => h, fun y hy => ?_⟩
          obtain ⟨ha, hb⟩ := apkParse_ok hy
          refine ⟨ha, ?_⟩
          rw [hb]
          exact Zip.fresh_empty _ _
      generalize hr : cellOr e.value (apkParse e.file) = r at hcell ⊢
      obtain ⟨hc1, hc2⟩ := hcell r rfl
      have hs'' : Faithful k.contents (ApkVal k) s' := by rw [← hc]; exact hs'
      cases r with
      | error err =>
        have := hc1 err rfl
        refine ⟨?_, hs'', hfr⟩
        cases f with
        | error e' =>
          simp only [apkParse] at this
          cases this
          rfl
        | ok data =>
          simp only
          rw [create_no_cd this]
      | ok x =>
        obtain ⟨data, members⟩ := x
        obtain ⟨hfd, hfresh⟩ := hc2 _ rfl
        simp only at hfd hfresh
        subst hfd
        have hl := hlen m data (by rw [← hc]; exact hcm)
        have hcg := cached_congr data hl (memberResolver cfg w actual represented) (fun _ => k.member m)
          Resolver.toVirt debugSyms (hf m data he (by rw [← hc]; exact hcm))
        obtain ⟨g1, g2⟩ := Zip.cached_fresh data hl (fun _ => k.member m) Resolver.toVirt members off debugSyms hfresh
        simp only
        rw [(hcg members off).1, (hcg members off).2]
        cases hres : Zip.cachedApkResolver data (fun _ => k.member m) Resolver.toVirt members off debugSyms with
        | mk r members' =>
          rw [hres] at g1 g2
          simp only at g1 g2
          rw [← g1]
          have hset : Faithful k.contents (ApkVal k) (setCell s' m (data, members')) := by
            refine setCell_faithful hs'' m _ ?_
            intro e' he'
            rw [hg] at he'
            cases he'
            exact ⟨hfile, g2⟩
          cases r with
          | error err => exact ⟨rfl, hset, hfr.trans (setCell_frame _ _ _ _)⟩
          | ok found => exact ⟨rfl, hset, hfr.trans (setCell_frame _ _ _ _)⟩

theorem apkOn_loose {cfg : Settings M K} {w : World M} (actual represented : Bytes) (off : Nat) (debugSyms : Bool)
    {s : FileCache Bytes M (Except Err Bytes) (Bytes × Zip.MemberCache Resolver)}
    (hs : Faithful w.disk.contents (fun _ _ _ => True) s) :
    Faithful w.disk.contents (fun _ _ _ => True) (apkResolverOn cfg w actual represented off debugSyms s).2 ∧
    Frame w.disk.stat s (apkResolverOn cfg w actual represented off debugSyms s).2 := by
  obtain ⟨h1, h2, h3⟩ := entry_faithful hs actual
  unfold apkResolverOn
  cases he : effective s w.disk.stat actual with
  | error e => rw [h1 e he]; exact ⟨hs, Frame.refl _ _⟩
  | ok m =>
    cases hcm : w.disk.contents m with
    | error e => rw [h2 m e he hcm]; exact ⟨hs, Frame.refl _ _⟩
    | ok f =>
      obtain ⟨e, s', hent, hfile, hg, hs', hfr, _⟩ := h3 m f he hcm
      rw [hent]
      simp only
      cases cellOr e.value (apkParse e.file) with
      | error err => exact ⟨hs', hfr⟩
      | ok x =>
        obtain ⟨data, members⟩ := x
        simp only
        cases Zip.cachedApkResolver data (memberResolver cfg w actual represented) Resolver.toVirt members off
            debugSyms with
        | mk r members' =>
          have hset := setCell_faithful hs' m (data, members') (fun _ _ => trivial)
          cases r with
          | error err => exact ⟨hset, hfr.trans (setCell_frame _ _ _ _)⟩
          | ok found => exact ⟨hset, hfr.trans (setCell_frame _ _ _ _)⟩

/-! ### ELF files -/

theorem lookup_elfAt {k : Known M} {w : World M} (hc : w.disk.contents = k.contents)
    (version : Bytes → Except Err M) (p r : Bytes) (hn : ∀ m, version p = .ok m → k.name m = r) :
    k.elf.lookup version p = elfAt w version p r := by
  unfold Universe.lookup elfAt fileOf ofVersion
  cases hv : version p with
  | error e => rfl
  | ok m =>
    simp only [Known.elf, hc]
    cases k.contents m with
    | error e => rfl
    | ok f => simp only [hn m hv]

theorem elfOn_exact {cfg : Settings M K} {k : Known M} {w : World M} (hc : w.disk.contents = k.contents)
    (actual represented : Bytes) (debugSyms : Bool)
    {s : ElfCache Bytes M (Except Err Bytes) ElfParser DebugData}
    (hs : Faithful k.contents (ElfCache.ElfVal k.elf) s) (v : Versions M) (hv : v.elf = effective s w.disk.stat)
    (hf : Fits cfg k w v (.elf actual represented debugSyms))
    (maps : Nat → Except Err (List (Except Err Maps.Entry))) :
    (elfResolverOn cfg w actual represented debugSyms s).1 =
      (envAt cfg w v maps).elf actual represented debugSyms ∧
    Faithful k.contents (ElfCache.ElfVal k.elf) (elfResolverOn cfg w actual represented debugSyms s).2 ∧
    Frame w.disk.stat s (elfResolverOn cfg w actual represented debugSyms s).2 := by
  simp only [Fits, hv] at hf
  have hdisk : w.disk = ⟨w.disk.stat, k.elf.contents⟩ := by
    show w.disk = ⟨w.disk.stat, k.contents⟩
    rw [← hc]
  unfold elfResolverOn envAt
  simp only [hv]
  cases debugSyms with
  | false =>
    obtain ⟨h1, h2, h3, _⟩ := ElfCache.plainOn_faithful (u := k.elf) (stat := w.disk.stat) hs actual represented
      (fun m hm => (hf m hm).1)
    rw [← hdisk] at h1 h2 h3
    rw [lookup_elfAt hc _ _ _ fun m hm => (hf m hm).1] at h1
    simp only [Bool.false_eq_true, if_false]
    change ((s.plainOn w.disk elfParse actual represented).1 = _) at h1
    change Faithful _ _ (s.plainOn w.disk elfParse actual represented).2 at h2
    change Frame _ _ (s.plainOn w.disk elfParse actual represented).2 at h3
    rw [← h1]
    cases hr : s.plainOn w.disk elfParse actual represented with
    | mk r s' =>
      rw [hr] at h2 h3
      cases r <;> exact ⟨rfl, h2, h3⟩
  | true =>
    obtain ⟨h1, h2, h3⟩ := ElfCache.dwarfOn_faithful (u := k.elf) (stat := w.disk.stat)
      (build := fromParser cfg.tools w.files cfg.debugDirs) hs actual represented
      (fun m hm => ⟨(hf m hm).1, (hf m hm).2 rfl⟩)
    rw [← hdisk] at h1 h2 h3
    change ((s.dwarfOn w.disk elfParse (fromParser cfg.tools w.files cfg.debugDirs) actual represented).1 = _) at h1
    change Faithful _ _ (s.dwarfOn w.disk elfParse _ actual represented).2 at h2
    change Frame _ _ (s.dwarfOn w.disk elfParse _ actual represented).2 at h3
    simp only [if_true]
    have hd : debugAt cfg w (effective s w.disk.stat) actual represented =
        (ofVersion k.contents k.elf.withDebug (effective s w.disk.stat actual)).map
          (fun x => elfAsResolver cfg.tools (.dwarf x.1 x.2)) := by
      unfold debugAt
      rw [← lookup_elfAt (k := k) hc _ _ _ fun m hm => (hf m hm).1]
      unfold Universe.lookup ofVersion
      cases he : effective s w.disk.stat actual with
      | error e => rfl
      | ok m =>
        simp only [Known.elf, Universe.withDebug]
        cases hcm : k.contents m with
        | error e => rfl
        | ok f =>
          simp only
          cases hp : elfParse (k.name m) f with
          | error e => rfl
          | ok pr =>
            obtain ⟨g1, g2⟩ := (hf m he).2 rfl f pr hcm hp
            simp only
            rw [← eval_congr (l := k.elf.lookup (effective s w.disk.stat))
              (l' := fun q => elfAt w (effective s w.disk.stat) q q)
              _ (fun q hq => lookup_elfAt hc _ q q (fun m' hm' => (g2 q hq m' hm').2)), g1]
            simp only [Known.elf]
            cases k.debug m <;> rfl
    rw [hd]
    change (_ = ofVersion k.contents k.elf.withDebug _) at h1
    rw [← h1]
    cases hr : s.dwarfOn w.disk elfParse (fromParser cfg.tools w.files cfg.debugDirs) actual represented with
    | mk r s' =>
      rw [hr] at h2 h3
      cases r <;> exact ⟨rfl, h2, h3⟩

/-- What is stored for an ELF file if it is used under different names. -/
abbrev LooseElf (contents : M → Except Err (Except Err Bytes))
    (s : ElfCache Bytes M (Except Err Bytes) ElfParser DebugData) : Prop :=
  Faithful contents (ElfCache.PlainVal elfParse (fun _ _ => True)) s

theorem elfOn_loose {cfg : Settings M K} {w : World M} (actual represented : Bytes) (debugSyms : Bool)
    {s : ElfCache Bytes M (Except Err Bytes) ElfParser DebugData} (hs : LooseElf w.disk.contents s) :
    LooseElf w.disk.contents (elfResolverOn cfg w actual represented debugSyms s).2 ∧
    Frame w.disk.stat s (elfResolverOn cfg w actual represented debugSyms s).2 ∧
    (debugSyms = false → ∃ name, (elfResolverOn cfg w actual represented debugSyms s).1 =
      (elfAt w (effective s w.disk.stat) actual name).map fun p => elfAsResolver cfg.tools (.elf p)) := by
  unfold elfResolverOn
  cases debugSyms with
  | false =>
    obtain ⟨⟨name, _, h1⟩, h2, h3⟩ := ElfCache.plainOn_named hs actual represented (fun _ _ => trivial)
    simp only [Bool.false_eq_true, if_false]
    have h4 : (s.plainOn w.disk elfParse actual represented).1 = elfAt w (effective s w.disk.stat) actual name := by
      rw [h1]
      unfold elfAt fileOf ofVersion
      cases effective s w.disk.stat actual with
      | error e => rfl
      | ok m =>
        simp only
        cases w.disk.contents m <;> rfl
    cases hr : s.plainOn w.disk elfParse actual represented with
    | mk r s' =>
      rw [hr] at h2 h3 h4
      cases r <;> exact ⟨h2, h3, fun _ => ⟨name, by rw [← h4]; rfl⟩⟩
  | true =>
    obtain ⟨h2, h3⟩ := ElfCache.dwarfOn_named (build := fromParser cfg.tools w.files cfg.debugDirs) hs actual represented
    simp only [if_true]
    cases hr : s.dwarfOn w.disk elfParse (fromParser cfg.tools w.files cfg.debugDirs) actual represented with
    | mk r s' =>
      rw [hr] at h2 h3
      cases r <;> exact ⟨h2, h3, by simp⟩

/-! ### Other files -/

theorem breakpadOn_faithful {cfg : Settings M K} {w : World M} (path : Bytes)
    {s : FileCache Bytes M (Except Err Bytes) Breakpad.SymbolFile}
    (hs : Faithful w.disk.contents (fun _ f t => Inspect.breakpadParse f = .ok t) s)
    (v : Versions M) (hv : v.breakpad path = effective s w.disk.stat path)
    (maps : Nat → Except Err (List (Except Err Maps.Entry))) :
    (breakpadOn w path s).1 = (envAt cfg w v maps).breakpad path ∧
    Faithful w.disk.contents (fun _ f t => Inspect.breakpadParse f = .ok t) (breakpadOn w path s).2 ∧
    Frame w.disk.stat s (breakpadOn w path s).2 := by
  obtain ⟨h1, h2, h3⟩ := resolve_faithful hs path
  have h4 : (envAt cfg w v maps).breakpad path = (s.resolve w.disk path Inspect.breakpadParse).1.map (·.findSym) := by
    rw [h1]
    unfold envAt fileOf ofVersion
    simp only [hv]
    cases effective s w.disk.stat path with
    | error e => rfl
    | ok m =>
      simp only
      cases w.disk.contents m with
      | error e => rfl
      | ok f =>
        cases f with
        | error e => rfl
        | ok data =>
          simp only [Inspect.breakpadParse]
          cases Breakpad.fromBytes data <;> rfl
  rw [h4]
  unfold breakpadOn
  cases hr : s.resolve w.disk path Inspect.breakpadParse with
  | mk r s' =>
    rw [hr] at h2 h3
    cases r <;> exact ⟨rfl, h2, h3⟩

theorem gsymOn_faithful {cfg : Settings M K} {w : World M} (path : Bytes)
    {s : FileCache Bytes M (Except Err Bytes) Gsym.Context}
    (hs : Faithful w.disk.contents (fun _ f t => gsymParse f = .ok t) s)
    (v : Versions M) (hv : v.gsym path = effective s w.disk.stat path)
    (maps : Nat → Except Err (List (Except Err Maps.Entry))) :
    (gsymOn w path s).1 = (envAt cfg w v maps).gsymFile path ∧
    Faithful w.disk.contents (fun _ f t => gsymParse f = .ok t) (gsymOn w path s).2 ∧
    Frame w.disk.stat s (gsymOn w path s).2 := by
  obtain ⟨h1, h2, h3⟩ := resolve_faithful hs path
  have h4 : (envAt cfg w v maps).gsymFile path = (s.resolve w.disk path gsymParse).1.map Gsym.findSym := by
    rw [h1]
    unfold envAt fileOf ofVersion
    simp only [hv]
    cases effective s w.disk.stat path with
    | error e => rfl
    | ok m =>
      simp only
      cases w.disk.contents m with
      | error e => rfl
      | ok f =>
        cases f with
        | error e => rfl
        | ok data =>
          simp only [gsymParse]
          cases Gsym.parseHeader ⟨4096, data⟩ <;> rfl
  rw [h4]
  unfold gsymOn
  cases hr : s.resolve w.disk path gsymParse with
  | mk r s' =>
    rw [hr] at h2 h3
    cases r <;> exact ⟨rfl, h2, h3⟩

theorem perfMapOn_faithful {cfg : Settings M K} {w : World M} (pid : Nat)
    {s : FileCache Bytes M (Except Err Bytes) (List PerfMap.Function)}
    (hs : Faithful w.disk.contents (fun _ f t => perfMapParse f = .ok t) s)
    (v : Versions M) (hv : v.perfMap = effective s w.disk.stat)
    (maps : Nat → Except Err (List (Except Err Maps.Entry))) :
    (perfMapOn w pid s).1 = (envAt cfg w v maps).perfMap pid ∧
    Faithful w.disk.contents (fun _ f t => perfMapParse f = .ok t) (perfMapOn w pid s).2 ∧
    Frame w.disk.stat s (perfMapOn w pid s).2 := by
  obtain ⟨h1, h2, h3⟩ := resolveOptional_faithful hs (PerfMap.path (resolvePid w pid))
  have h4 : (envAt cfg w v maps).perfMap pid =
      (s.resolveOptional w.disk (PerfMap.path (resolvePid w pid)) perfMapParse).1.map (·.map PerfMap.findSym) := by
    rw [h1]
    unfold envAt fileOf
    simp only [hv]
    cases ofVersion w.disk.contents (fun _ f => .ok f) (effective s w.disk.stat (PerfMap.path (resolvePid w pid))) with
    | error e => cases e <;> rfl
    | ok f =>
      cases f with
      | error e => rfl
      | ok data =>
        simp only [perfMapParse]
        cases PerfMap.parsePerfMap data <;> rfl
  rw [h4]
  unfold perfMapOn
  cases hr : s.resolveOptional w.disk (PerfMap.path (resolvePid w pid)) perfMapParse with
  | mk r s' =>
    rw [hr] at h2 h3
    cases r with
    | error e => exact ⟨rfl, h2, h3⟩
    | ok o => cases o <;> exact ⟨rfl, h2, h3⟩

end Blazesym.Symbolize
