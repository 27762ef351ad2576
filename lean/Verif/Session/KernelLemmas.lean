import Verif.Session.KernelSpec
import Verif.Session.VersionProps
import Verif.Util.TextLemmas

/-! # What the kernel resolver does to its caches -/

set_option autoImplicit false

namespace Blazesym.Symbolize
open Blazesym.Util Blazesym.Cache Blazesym.Spec Blazesym.Spec.Symbolize Blazesym.Kernel Blazesym.Kernel.Depmod
open Blazesym.Dwarf hiding Resolver

variable {M : Type} [DecidableEq M]

/-! ### kallsyms -/

theorem badLine_none {lines : List Bytes} (h : ∀ l ∈ lines, isUtf8 l = true) : badLine lines = none := by
  induction lines with
  | nil => rfl
  | cons l t ih =>
    simp only [badLine]
    rw [if_pos (h l List.mem_cons_self), ih fun x hx => h x (List.mem_cons_of_mem _ hx)]
    rfl

theorem position_text {data : Bytes} (h : ∀ l ∈ splitLines data, isUtf8 l = true) {n : Nat} (hp : Position data n) :
    n = 0 := by
  induction hp with
  | start => rfl
  | failed n e _ _ ih =>
    subst ih
    simp [readUpTo, badLine_none h]

/-- What is stored for a kallsyms file. -/
def KsymVal (_ : M) (f : Except Err Bytes) (c : KsymCell) : Prop :=
  ∃ data, f = .ok data ∧
    (∀ syms, c.syms = some syms → ∃ n, Position data n ∧ loadKallsyms true (data.drop n) = .ok syms) ∧
    (c.syms = none → Position data c.position)

/-- The symbols of a version of a kallsyms file, read from a position. -/
def kallsymsFrom (w : World M) (version : Except Err M) (n : Nat) : Except Err (List Ksym) :=
  match fileOf w version with
  | .error e => .error e
  | .ok (.error e) => .error e
  | .ok (.ok data) => loadKallsyms true (data.drop n)

theorem ksymOn_faithful {w : World M} (path : Bytes) {s : FileCache Bytes M (Except Err Bytes) KsymCell}
    (hs : Faithful w.disk.contents KsymVal s) :
    (∃ n, (∀ m data, effective s w.disk.stat path = .ok m → w.disk.contents m = .ok (.ok data) → Position data n) ∧
      (ksymOn w path s).1 = kallsymsFrom w (effective s w.disk.stat path) n) ∧
    Faithful w.disk.contents KsymVal (ksymOn w path s).2 ∧ Frame w.disk.stat s (ksymOn w path s).2 := by
  obtain ⟨h1, h2, h3⟩ := entry_faithful hs path
  unfold ksymOn kallsymsFrom fileOf ofVersion
  cases he : effective s w.disk.stat path with
  | error e => rw [h1 e he]; exact ⟨⟨0, by simp, rfl⟩, hs, Frame.refl _ _⟩
  | ok m =>
    simp only
    cases hcm : w.disk.contents m with
    | error e =>
      rw [h2 m e he hcm]
      refine ⟨⟨0, ?_, rfl⟩, hs, Frame.refl _ _⟩
      intro m' data hm' h
      cases hm'
      rw [hcm] at h
      cases h
    | ok f =>
      obtain ⟨e, s', hent, hfile, hg, hs', hfr, _⟩ := h3 m f he hcm
      rw [hent]
      simp only
      have hpos : ∀ {n : Nat} {data : Bytes}, f = .ok data → Position data n →
          ∀ m' data', (Except.ok m : Except Err M) = .ok m' → w.disk.contents m' = .ok (.ok data') →
            Position data' n := by
        intro n data hfd hp m' data' hm' hd'
        cases hm'
        rw [hcm, hfd] at hd'
        cases hd'
        exact hp
      have hcell : ∀ data, f = .ok data →
          (∀ syms, (e.value.getD ⟨none, 0⟩).syms = some syms →
            ∃ n, Position data n ∧ loadKallsyms true (data.drop n) = .ok syms) ∧
          ((e.value.getD ⟨none, 0⟩).syms = none → Position data (e.value.getD ⟨none, 0⟩).position) := by
        intro data hd
        cases hv : e.value with
        | none => exact ⟨(by intro syms h; cases h), fun _ => .start⟩
        | some c =>
          obtain ⟨d, g1, g2, g3⟩ := hs'.value m e c hg hv
          rw [hfile, hd] at g1
          cases g1
          exact ⟨g2, g3⟩
      have hsyms : ∀ syms, (e.value.getD ⟨none, 0⟩).syms = some syms → ∃ data, f = .ok data := by
        intro syms h
        cases hv : e.value with
        | none => rw [hv] at h; cases h
        | some c =>
          obtain ⟨d, g1, _⟩ := hs'.value m e c hg hv
          exact ⟨d, hfile ▸ g1⟩
      generalize hc : e.value.getD (⟨none, 0⟩ : KsymCell) = c at hcell hsyms ⊢
      cases hcs : c.syms with
      | some syms =>
        obtain ⟨data, hd⟩ := hsyms syms hcs
        obtain ⟨n, g1, g2⟩ := (hcell data hd).1 syms hcs
        refine ⟨⟨n, hpos hd g1, ?_⟩, hs', hfr⟩
        subst hd
        exact g2.symm
      | none =>
        simp only
        rw [hfile]
        cases f with
        | error err =>
          refine ⟨⟨0, ?_, rfl⟩, hs', hfr⟩
          intro m' data' hm' hd'
          cases hm'
          rw [hcm] at hd'
          cases hd'
        | ok data =>
          have hp := (hcell data rfl).2 hcs
          simp only
          have hset : ∀ cell : KsymCell, KsymVal m (.ok data) cell →
              Faithful w.disk.contents KsymVal (setCell s' m cell) := by
            intro cell hcv
            refine setCell_faithful hs' m _ ?_
            intro e' he'
            rw [hg] at he'
            cases he'
            rw [hfile]
            exact hcv
          cases hl : loadKallsyms true (data.drop c.position) with
          | error err =>
            refine ⟨⟨c.position, hpos rfl hp, hl.symm⟩, hset _ ⟨data, rfl, (by intro syms h; cases h), fun _ => ?_⟩,
              hfr.trans (setCell_frame _ _ _ _)⟩
            exact .failed _ err hp hl
          | ok syms =>
            refine ⟨⟨c.position, hpos rfl hp, hl.symm⟩, hset _ ⟨data, rfl, ?_, (by intro h; cases h)⟩,
              hfr.trans (setCell_frame _ _ _ _)⟩
            intro syms' h
            cases h
            exact ⟨_, hp, hl⟩

/-! ### ELF files -/

/-- ELF files that answer the same, up to the module. -/
def ElfRel (t : Tools) (Q : Option Bytes → Option Bytes → Prop) (a b : ElfResolver) : Prop :=
  FnRel Q (a.findSym t) (b.findSym t) ∧ elfFindAddr t a = elfFindAddr t b

theorem elfRel_refl (t : Tools) {Q : Option Bytes → Option Bytes → Prop} (hQ : ∀ x, Q x x) (a : ElfResolver) :
    ElfRel t Q a a := ⟨fn_refl' hQ _, rfl⟩

/-- The name of a file matters for the module only. -/
theorem elfRel_name (t : Tools) (image : Elf.Backend) (n n' : Option Bytes) :
    ElfRel t (fun _ _ => True) (.elf ⟨n, image⟩) (.elf ⟨n', image⟩) := by
  refine ⟨?_, ?_⟩
  · intro addr opts
    simp only [ElfResolver.findSym, ElfParser.findSym, ElfParser.file]
    cases (Elf.File.ofImage t.codec image).findSym t.σ addr with
    | error e => exact .error e
    | ok r =>
      cases r with
      | error miss => exact .ok _ _ (.error _)
      | ok sym => exact .ok _ _ (.ok _ _ rfl trivial)
  · funext name
    have h : ∀ x : Option Bytes, elfFindAddr t (.elf ⟨x, image⟩) name =
        (Elf.File.ofImage t.codec image).findAddr t.σ name ⟨false, .undefined⟩ := by
      intro x
      simp only [elfFindAddr, ElfResolver.findAddr, ElfParser.findAddr, ElfParser.findAddrInfos, ElfParser.file]
      cases (Elf.File.ofImage t.codec image).findAddr t.σ name ⟨false, .undefined⟩ with
      | error e => rfl
      | ok infos =>
        simp only [List.map_map]
        congr 1
        exact (List.map_congr_left (fun i _ => rfl)).trans (List.map_id _)
    rw [h, h]

theorem kernelElf_loose {t : Tools} {dirs : List Bytes} {w : World M} (actual represented : Bytes) (debugSyms : Bool)
    {s : ElfCache Bytes M (Except Err Bytes) ElfParser DebugData} (hs : LooseElf w.disk.contents s) :
    LooseElf w.disk.contents (kernelElfOn t dirs w debugSyms actual represented s).2 ∧
    Frame w.disk.stat s (kernelElfOn t dirs w debugSyms actual represented s).2 ∧
    (debugSyms = false → ∃ name, (kernelElfOn t dirs w debugSyms actual represented s).1 =
      (elfAt w (effective s w.disk.stat) actual name).map ElfResolver.elf) := by
  unfold kernelElfOn
  cases debugSyms with
  | false =>
    obtain ⟨⟨name, _, h1⟩, h2, h3⟩ := ElfCache.plainOn_named hs actual represented (fun _ _ => trivial)
    simp only [Bool.false_eq_true, if_false]
    have h4 : (s.plainOn w.disk elfParse actual represented).1 = elfAt w (effective s w.disk.stat) actual name := by
      rw [h1]
      unfold elfAt fileOf ofVersion
      cases effective s w.disk.stat actual with
      | error e => rfl
      | ok m =>
        simp only
        cases w.disk.contents m <;> rfl
    cases hr : s.plainOn w.disk elfParse actual represented with
    | mk r s' =>
      rw [hr] at h2 h3 h4
      cases r <;> exact ⟨h2, h3, fun _ => ⟨name, by rw [← h4]; rfl⟩⟩
  | true =>
    obtain ⟨h2, h3⟩ := ElfCache.dwarfOn_named (build := fromParser t w.files dirs) hs actual represented
    simp only [if_true]
    cases hr : s.dwarfOn w.disk elfParse (fromParser t w.files dirs) actual represented with
    | mk r s' =>
      rw [hr] at h2 h3
      cases r <;> exact ⟨h2, h3, by simp⟩

theorem kernelElf_exact {t : Tools} {dirs : List Bytes} {k : Known M} {w : World M} (hc : w.disk.contents = k.contents)
    (actual represented : Bytes) (debugSyms : Bool)
    {s : ElfCache Bytes M (Except Err Bytes) ElfParser DebugData}
    (hs : Faithful k.contents (ElfCache.ElfVal k.elf) s) (hv : effective s w.disk.stat = w.disk.stat)
    (hf : ∀ m, w.disk.stat actual = .ok m → k.name m = represented ∧
      (debugSyms = true → k.elf.Settled (fromParser t w.files dirs) w.disk.stat m)) :
    (kernelElfOn t dirs w debugSyms actual represented s).1 = kernelElfAt t dirs w debugSyms actual represented ∧
    Faithful k.contents (ElfCache.ElfVal k.elf) (kernelElfOn t dirs w debugSyms actual represented s).2 ∧
    Frame w.disk.stat s (kernelElfOn t dirs w debugSyms actual represented s).2 := by
  have hdisk : w.disk = ⟨w.disk.stat, k.elf.contents⟩ := by
    show w.disk = ⟨w.disk.stat, k.contents⟩
    rw [← hc]
  unfold kernelElfOn kernelElfAt
  cases debugSyms with
  | false =>
    obtain ⟨h1, h2, h3, _⟩ := ElfCache.plainOn_faithful (u := k.elf) (stat := w.disk.stat) hs actual represented
      (fun m hm => (hf m (by rw [← hv]; exact hm)).1)
    rw [← hdisk] at h1 h2 h3
    rw [hv, lookup_elfAt hc _ _ _ fun m hm => (hf m hm).1] at h1
    simp only [Bool.false_eq_true, if_false]
    change ((s.plainOn w.disk elfParse actual represented).1 = _) at h1
    change Faithful _ _ (s.plainOn w.disk elfParse actual represented).2 at h2
    change Frame _ _ (s.plainOn w.disk elfParse actual represented).2 at h3
    rw [← h1]
    cases hr : s.plainOn w.disk elfParse actual represented with
    | mk r s' =>
      rw [hr] at h2 h3
      cases r <;> exact ⟨rfl, h2, h3⟩
  | true =>
    obtain ⟨h1, h2, h3⟩ := ElfCache.dwarfOn_faithful (u := k.elf) (stat := w.disk.stat)
      (build := fromParser t w.files dirs) hs actual represented
      (fun m hm => by rw [hv] at hm ⊢; exact ⟨(hf m hm).1, (hf m hm).2 rfl⟩)
    rw [← hdisk] at h1 h2 h3
    change ((s.dwarfOn w.disk elfParse (fromParser t w.files dirs) actual represented).1 = _) at h1
    change Faithful _ _ (s.dwarfOn w.disk elfParse _ actual represented).2 at h2
    change Frame _ _ (s.dwarfOn w.disk elfParse _ actual represented).2 at h3
    simp only [if_true]
    have hd : kernelElfAt t dirs w true actual represented =
        (ofVersion k.contents k.elf.withDebug (w.disk.stat actual)).map (fun x => .dwarf x.1 x.2) := by
      unfold kernelElfAt
      rw [← lookup_elfAt (k := k) hc _ _ _ fun m hm => (hf m hm).1]
      unfold Universe.lookup ofVersion
      cases he : w.disk.stat actual with
      | error e => rfl
      | ok m =>
        simp only [Known.elf, Universe.withDebug]
        cases hcm : k.contents m with
        | error e => rfl
        | ok f =>
          simp only
          cases hp : elfParse (k.name m) f with
          | error e => rfl
          | ok pr =>
            obtain ⟨g1, g2⟩ := (hf m he).2 rfl f pr hcm hp
            simp only [if_true]
            rw [← eval_congr (l := k.elf.lookup w.disk.stat) (l' := fun q => elfAt w w.disk.stat q q)
              _ (fun q hq => lookup_elfAt hc _ q q (fun m' hm' => (g2 q hq m' hm').2)), g1]
            simp only [Known.elf]
            cases k.debug m <;> rfl
    have hd' := hd
    unfold kernelElfAt at hd'
    simp only [if_true] at hd'
    rw [hd']
    change (_ = ofVersion k.contents k.elf.withDebug _) at h1
    rw [hv] at h1
    rw [← h1]
    cases hr : s.dwarfOn w.disk elfParse (fromParser t w.files dirs) actual represented with
    | mk r s' =>
      rw [hr] at h2 h3
      cases r <;> exact ⟨rfl, h2, h3⟩

/-! ### The resolver -/

/-- Everything the kernel resolver gets from outside is what environments say. -/
structure KernelSim {S : Type} (I : S → Prop) (t : Tools) (Q : Option Bytes → Option Bytes → Prop) (h : KernelHost S)
    (src : KernelSource) (n : NewEnv (List Ksym) ElfResolver) (e : KernelEnv) : Prop where
  release : h.release = n.release
  fileExists : h.fileExists = n.fileExists
  ksym : ∀ path, KallsymsPath src path → Sim I Eq (h.ksym path) (n.ksym path)
  vmlinux : ∀ path, (src.vmlinux = .some path ∨
      (src.vmlinux = .default ∧ ∃ rel, n.release = .ok rel ∧ path ∈ vmlinuxPaths rel)) →
    Sim I (ElfRel t Q) (h.elf path path) (n.elf path)
  kaslr : ∀ k v v', selectKsym n src.kallsyms = .ok k → selectVmlinux n src.vmlinux = .ok v' →
    OptRel (ElfRel t Q) v v' → Sim I Eq (h.kaslr k v) (n.kaslr k v')
  modmap : Sim I Eq h.modmap e.modmap
  depmod : Sim I Eq h.depmod e.depmod
  decompress : h.decompress = e.decompress
  plain : ∀ dir data name path, e.depmod = .ok (dir, data) → findPath dir data name = .ok (some path) →
    compression path = none → Sim I (fun r f => FnRel Q (h.elfFn r) f) (h.elf path path) (e.elfPath path)
  temp : ∀ dir data name path c tmp, e.depmod = .ok (dir, data) → findPath dir data name = .ok (some path) →
    compression path = some c → h.decompress c path = .ok tmp →
    Sim I (fun r f => FnRel Q (h.elfFn r) f) (h.elf tmp (withoutExtension path)) (e.elfTemp tmp (withoutExtension path))
  elfFn : h.elfFn = fun r => r.findSym t

variable {S : Type} {I : S → Prop} {t : Tools} {Q : Option Bytes → Option Bytes → Prop} {h : KernelHost S}
  {src : KernelSource} {n : NewEnv (List Ksym) ElfResolver} {e : KernelEnv}

theorem ignoring_rel {A B : Type} {R : A → B → Prop} {a : Except Err A} {b : Except Err B} (hab : ERel R a b) :
    ERel (OptRel R) (ignoring a) (ignoring b) := by
  cases hab with
  | error e => cases e <;> first | exact .error _ | exact .ok _ _ trivial
  | ok x y hxy => exact .ok _ _ hxy

theorem selectKsym_sim (hs : KernelSim I t Q h src n e) :
    Sim I Eq (h.selectKsym src.kallsyms) (selectKsym n src.kallsyms) := by
  unfold KernelHost.selectKsym selectKsym
  cases hk : src.kallsyms with
  | none => exact Sim.lift (.ok _ _ rfl)
  | some path =>
    refine Sim.bind (hs.ksym path (Or.inl hk)) (fun e he => by simp only [he]) ?_
    intro x y hy hxy
    subst hxy
    simp only [hy]
    exact Sim.lift (.ok _ _ rfl)
  | default =>
    refine Sim.mapResult (hs.ksym _ (Or.inr ⟨hk, rfl⟩)) ?_
    intro r hr
    rw [erel_eq (fun _ _ hxy => hxy) hr]
    exact erel_refl (fun _ => rfl) _

theorem selectVmlinux_sim (hs : KernelSim I t Q h src n e) :
    Sim I (OptRel (ElfRel t Q)) (h.selectVmlinux src.vmlinux) (selectVmlinux n src.vmlinux) := by
  unfold KernelHost.selectVmlinux selectVmlinux
  cases hk : src.vmlinux with
  | none => exact Sim.lift (.ok _ _ trivial)
  | some path =>
    refine Sim.bind (hs.vmlinux path (Or.inl hk)) (fun e he => by simp only [he]) ?_
    intro x y hy hxy
    simp only [hy]
    exact Sim.lift (.ok _ _ hxy)
  | default =>
    simp only [hs.release, hs.fileExists]
    cases hr : n.release with
    | error e => exact Sim.lift (.error e)
    | ok rel =>
      simp only
      cases hf : (vmlinuxPaths rel).find? n.fileExists with
      | none => exact Sim.lift (.ok _ _ trivial)
      | some path =>
        exact Sim.mapResult (hs.vmlinux path (Or.inr ⟨hk, rel, hr, List.mem_of_find?_eq_some hf⟩))
          fun r hr => ignoring_rel hr

/-- Resolvers made of the same parts, up to modules. -/
def PartsRel (t : Tools) (Q : Option Bytes → Option Bytes → Prop) (a b : KernelParts (List Ksym) ElfResolver) : Prop :=
  a.ksym = b.ksym ∧ OptRel (ElfRel t Q) a.vmlinux b.vmlinux ∧ a.kaslr = b.kaslr

theorem optRel_isSome {α β : Type} {R : α → β → Prop} {a : Option α} {b : Option β} (hab : OptRel R a b) :
    a.isSome = b.isSome ∧ a.isNone = b.isNone := by
  cases a <;> cases b <;> first | exact ⟨rfl, rfl⟩ | exact hab.elim

theorem create_sim (hs : KernelSim I t Q h src n e) :
    Sim I (PartsRel t Q) (h.create src.kallsyms src.vmlinux src.kaslr)
      (kernelResolverNew n src.kallsyms src.vmlinux src.kaslr) := by
  unfold KernelHost.create kernelResolverNew
  refine Sim.bind (selectKsym_sim hs) (fun e he => by simp only [he]) ?_
  intro k k' hk hkk
  subst hkk
  simp only [hk]
  refine Sim.bind (selectVmlinux_sim hs) (fun e he => by simp only [he]) ?_
  intro v v' hv hvv
  simp only [hv, (optRel_isSome hvv).1, (optRel_isSome hvv).2]
  split
  · exact Sim.lift (.error _)
  · cases src.kaslr with
    | some offset => exact Sim.lift (.ok _ _ ⟨rfl, hvv, rfl⟩)
    | none =>
      simp only
      split
      · refine Sim.bind (hs.kaslr k v v' hk hv hvv) (fun e he => by simp only [he]) ?_
        intro x y hy hxy
        subst hxy
        simp only [hy]
        exact Sim.lift (.ok _ _ ⟨rfl, hvv, rfl⟩)
      · exact Sim.lift (.ok _ _ ⟨rfl, hvv, rfl⟩)

theorem inModule_rel {f g : SymFn} (hfg : FnRel Q f g) (base addr : Nat) (opts : FindSymOpts) :
    ERel (FoundRel Q) (inModuleFile f base addr opts) (inModuleFile g base addr opts) := by
  unfold inModuleFile
  split
  · have := hfg (addr - base) opts
    generalize f (addr - base) opts = a at this ⊢
    generalize g (addr - base) opts = b at this ⊢
    cases this with
    | error e => exact .error e
    | ok x y hxy =>
      cases hxy with
      | error r => exact .ok _ _ (.error _)
      | ok a b h1 h2 => exact .ok _ _ (.ok _ _ h1 h2)
  · exact .error _

theorem found_refl (hQ : ∀ x, Q x x) (x : Except Reason ResolvedSym) : FoundRel Q x x := by
  cases x with
  | error r => exact .error r
  | ok a => exact .ok a a rfl (hQ _)

theorem inCore_rel (hQ : ∀ x, Q x x) {f g : SymFn} (hfg : FnRel Q f g) (ksym : Option SymFn) (kaslr addr : Nat)
    (opts : FindSymOpts) : ERel (FoundRel Q) (findInCore f ksym kaslr addr opts) (findInCore g ksym kaslr addr opts) := by
  unfold findInCore
  split
  · have := hfg (addr - kaslr) opts
    generalize f (addr - kaslr) opts = a at this ⊢
    generalize g (addr - kaslr) opts = b at this ⊢
    cases this with
    | error e => exact .error e
    | ok x y hxy =>
      cases hxy with
      | error r =>
        simp only
        cases ksym with
        | none => exact .ok _ _ (.error _)
        | some k => exact erel_refl (found_refl hQ) _
      | ok a b h1 h2 =>
        have hsz : a.size = b.size := by
          have := congrArg ResolvedSym.size h1
          exact this
        simp only [hsz]
        split
        · cases ksym with
          | none => exact .ok _ _ (.ok _ _ h1 h2)
          | some k =>
            simp only
            split
            · exact erel_refl (found_refl hQ) _
            · exact .error _
            · exact .ok _ _ (.ok _ _ h1 h2)
        · exact .ok _ _ (.ok _ _ h1 h2)
  · exact .error _

theorem findInModule_eq (e : KernelEnv) (name : Bytes) (base addr : Nat) (opts : FindSymOpts) :
    findInModule e name base addr opts =
      match e.depmod with
      | .error err => .error err
      | .ok (dir, index) =>
        match findPath dir index name with
        | .error err => .error err
        | .ok none => .ok (.error .unknownAddr)
        | .ok (some path) =>
          match moduleResolver e path with
          | .error err => .error err
          | .ok resolver => inModuleFile resolver base addr opts := rfl

theorem moduleResolver_sim (hs : KernelSim I t Q h src n e) (dir data name path : Bytes)
    (hd : e.depmod = .ok (dir, data)) (hp : findPath dir data name = .ok (some path)) :
    Sim I (fun r f => FnRel Q (h.elfFn r) f) (h.moduleResolver path) (moduleResolver e path) := by
  unfold KernelHost.moduleResolver moduleResolver
  cases hc : compression path with
  | none => exact hs.plain dir data name path hd hp hc
  | some c =>
    simp only [← hs.decompress]
    cases ht : h.decompress c path with
    | error err => exact Sim.lift (.error err)
    | ok tmp => exact hs.temp dir data name path c tmp hd hp hc ht

theorem findInModule_sim (hs : KernelSim I t Q h src n e) (name : Bytes) (base addr : Nat) (opts : FindSymOpts) :
    Sim I (FoundRel Q) (h.findInModule name base addr opts) (findInModule e name base addr opts) := by
  unfold KernelHost.findInModule
  rw [findInModule_eq]
  refine Sim.bind hs.depmod (fun e he => by simp only [he]) ?_
  rintro x ⟨dir, data⟩ hy rfl
  simp only [hy]
  cases hp : findPath dir data name with
  | error err => exact Sim.lift (.error err)
  | ok o =>
    cases o with
    | none => exact Sim.lift (.ok _ _ (.error _))
    | some path =>
      refine Sim.bind (moduleResolver_sim hs dir data name path hy hp) (fun e he => by simp only [he]) ?_
      intro r f hf hrf
      simp only [hf]
      exact Sim.lift (inModule_rel hrf base addr opts)

theorem findSym_sim (hQ : ∀ x, Q x x) (hs : KernelSim I t Q h src n e) {r r' : KernelParts (List Ksym) ElfResolver}
    (hr : PartsRel t Q r r') (addr : Nat) (opts : FindSymOpts) :
    Sim I (FoundRel Q) (h.findSym r addr opts)
      (KernelResolver.findSym ⟨r'.ksym.map h.ksymFn, r'.vmlinux.map (·.findSym t), r'.kaslr⟩ e addr opts) := by
  obtain ⟨h1, h2, h3⟩ := hr
  unfold KernelHost.findSym KernelResolver.findSym
  rw [h1, h3]
  cases hv : r.vmlinux with
  | none =>
    cases hv' : r'.vmlinux with
    | some v' => rw [hv, hv'] at h2; exact h2.elim
    | none =>
      cases r'.ksym with
      | none => exact Sim.lift (.error _)
      | some k => exact Sim.lift (erel_refl (found_refl hQ) _)
  | some v =>
    cases hv' : r'.vmlinux with
    | none => rw [hv, hv'] at h2; exact h2.elim
    | some v' =>
      rw [hv, hv'] at h2
      simp only [Option.map_some]
      refine Sim.bind hs.modmap (fun e he => by simp only [he]) ?_
      rintro mods _ hy rfl
      simp only [hy]
      cases findModule mods addr with
      | error err => exact Sim.lift (.error err)
      | ok x =>
        cases x with
        | ok m => exact findInModule_sim hs _ _ _ _
        | error reason =>
          simp only
          rw [hs.elfFn]
          exact Sim.lift (inCore_rel hQ h2.1 _ _ _ _)

end Blazesym.Symbolize
