import Verif.Session.KernelLemmas

/-! # Invariants of the kernel cache -/

set_option autoImplicit false

namespace Blazesym.Symbolize
open Blazesym.Util Blazesym.Cache Blazesym.Spec Blazesym.Spec.Symbolize Blazesym.Kernel Blazesym.Kernel.Depmod
open Blazesym.Dwarf hiding Resolver

variable {M : Type} [DecidableEq M]

/-- What is known about a kernel cache, `E` being what is known about its ELF files. -/
structure KernelBase (E : ElfCache Bytes M (Except Err Bytes) ElfParser DebugData → Prop)
    (contents : M → Except Err (Except Err Bytes)) (c : KernelCache M) : Prop where
  elf : E c.elf
  elfPins : NoPins c.elf
  elfAuto : c.elf.autoReload = true
  ksym : Faithful contents KsymVal c.ksym
  ksymPins : NoPins c.ksym
  ksymAuto : c.ksym.autoReload = true

/-- What is known about it during a request; `D` is what the detection of the KASLR offset results in. -/
structure KernelNow (E : ElfCache Bytes M (Except Err Bytes) ElfParser DebugData → Prop) (t : Tools) (w : World M)
    (c0 : KernelCache M) (D : Except Err Nat) (c : KernelCache M) : Prop where
  base : KernelBase E w.disk.contents c
  modmap : cellOr c.modmap (loadModmap t w) = cellOr c0.modmap (loadModmap t w)
  depmod : cellOr c.depmod (loadDepmod w) = cellOr c0.depmod (loadDepmod w)
  kaslr : cellOr c.kaslr D = cellOr c0.kaslr D

theorem KernelNow.start {E : ElfCache Bytes M (Except Err Bytes) ElfParser DebugData → Prop} {t : Tools} {w : World M}
    {c : KernelCache M} (h : KernelBase E w.disk.contents c) (D : Except Err Nat) : KernelNow E t w c D c :=
  ⟨h, rfl, rfl, rfl⟩

theorem initCell_spec {T : Type} (init : Except Err T) (cell : Option T) :
    (initCell init cell).1 = cellOr cell init ∧ cellOr (initCell init cell).2 init = cellOr cell init := by
  unfold initCell cellOr
  cases cell with
  | some v => exact ⟨rfl, rfl⟩
  | none => cases init <;> exact ⟨rfl, rfl⟩

variable {E : ElfCache Bytes M (Except Err Bytes) ElfParser DebugData → Prop} {t : Tools} {dirs : List Bytes}
  {w : World M} {c0 : KernelCache M} {D : Except Err Nat}

theorem elf_pins {c : ElfCache Bytes M (Except Err Bytes) ElfParser DebugData} (hp : NoPins c)
    (ha : c.autoReload = true) : effective c w.disk.stat = w.disk.stat := NoPins.present hp ha _

/-- A lookup of an ELF file keeps what is known. -/
theorem now_elf (hE : ∀ c debugSyms actual represented, E c → NoPins c → c.autoReload = true →
      E (kernelElfOn t dirs w debugSyms actual represented c).2 ∧
      Frame w.disk.stat c (kernelElfOn t dirs w debugSyms actual represented c).2)
    (debugSyms : Bool) (actual represented : Bytes) (c : KernelCache M) (h : KernelNow E t w c0 D c) :
    KernelNow E t w c0 D ((kernelHostOf t dirs w debugSyms).elf actual represented c).2 := by
  obtain ⟨h1, h2⟩ := hE c.elf debugSyms actual represented h.base.elf h.base.elfPins h.base.elfAuto
  exact ⟨{ h.base with elf := h1, elfPins := h.base.elfPins.frame h2, elfAuto := h2.autoReload.trans h.base.elfAuto },
    h.modmap, h.depmod, h.kaslr⟩

theorem now_ksym (debugSyms : Bool) (path : Bytes) (c : KernelCache M) (h : KernelNow E t w c0 D c) :
    KernelNow E t w c0 D ((kernelHostOf t dirs w debugSyms).ksym path c).2 := by
  obtain ⟨_, h1, h2⟩ := ksymOn_faithful path h.base.ksym
  exact ⟨{ h.base with ksym := h1, ksymPins := h.base.ksymPins.frame h2, ksymAuto := h2.autoReload.trans h.base.ksymAuto },
    h.modmap, h.depmod, h.kaslr⟩

theorem loose_elf (c : ElfCache Bytes M (Except Err Bytes) ElfParser DebugData) (debugSyms : Bool)
    (actual represented : Bytes) (h : LooseElf w.disk.contents c) :
    LooseElf w.disk.contents (kernelElfOn t dirs w debugSyms actual represented c).2 ∧
      Frame w.disk.stat c (kernelElfOn t dirs w debugSyms actual represented c).2 :=
  ⟨(kernelElf_loose actual represented debugSyms h).1, (kernelElf_loose actual represented debugSyms h).2.1⟩

theorem detect_congr {Q : Option Bytes → Option Bytes → Prop} (k : Option (List Ksym)) {v v' : Option ElfResolver}
    (h : OptRel (ElfRel t Q) v v') : detectKaslr t w k v = detectKaslr t w k v' := by
  unfold detectKaslr
  cases v with
  | none => cases v' with
    | none => rfl
    | some y => exact h.elim
  | some x => cases v' with
    | none => exact h.elim
    | some y => simp only [Option.map_some, h.2]

theorem ksym_sim (hI : ∀ c, KernelNow E t w c0 D c → KernelBase E w.disk.contents c) {src : KernelSource}
    (ht : TextKallsyms w src) (path : Bytes) (hp : KallsymsPath src path) :
    Sim (KernelNow E t w c0 D) Eq ((kernelHostOf t dirs w src.debugSyms).ksym path) (kallsymsAt w path) := by
  intro c hc
  refine ⟨?_, now_ksym _ path c hc⟩
  obtain ⟨⟨n, h1, h2⟩, _, _⟩ := ksymOn_faithful path (hI c hc).ksym
  have hv := NoPins.present (hI c hc).ksymPins (hI c hc).ksymAuto w.disk.stat
  rw [hv] at h1 h2
  have : (kernelHostOf t dirs w src.debugSyms).ksym path c =
      ((ksymOn w path c.ksym).1, { c with ksym := (ksymOn w path c.ksym).2 }) := rfl
  rw [this, h2]
  have he : kallsymsFrom w (w.disk.stat path) n = kallsymsAt w path := by
    unfold kallsymsFrom kallsymsAt fileOf ofVersion
    cases hst : w.disk.stat path with
    | error e => rfl
    | ok m =>
      simp only
      cases hcm : w.disk.contents m with
      | error e => rfl
      | ok f =>
        cases f with
        | error e => rfl
        | ok data =>
          have := position_text (fun l hl => ht path m data _ hp hst hcm ((lines_iff ..).mp rfl) l hl) (h1 m data hst hcm)
          subst this
          simp only [List.drop_zero]
  rw [he]
  exact erel_refl (fun _ => rfl) _

/-- The kernel resolver gets what there is without caches, if it does so for ELF files. -/
theorem kernel_sim {Q : Option Bytes → Option Bytes → Prop} {src : KernelSource} (ht : TextKallsyms w src)
    (s : State M (KernelCache M)) (hs : s.kernel = c0) (hD : D = detectionAt t dirs w (remembered s) src)
    (helf : ∀ actual represented, KernelFile w (orNow c0.depmod (loadDepmod w)) src actual represented →
      Sim (KernelNow E t w c0 D) (ElfRel t Q) ((kernelHostOf t dirs w src.debugSyms).elf actual represented)
        (kernelElfAt t dirs w src.debugSyms actual represented)) :
    KernelSim (KernelNow E t w c0 D) t Q (kernelHostOf t dirs w src.debugSyms) src
      (sourcesAt t dirs w (remembered s) src.debugSyms) (modulesAt t dirs w (remembered s) src.debugSyms) where
  release := rfl
  fileExists := rfl
  ksym := fun path hp => ksym_sim (fun _ h => h.base) ht path hp
  vmlinux := by
    rintro path (h | ⟨h, rel, h1, h2⟩)
    · exact helf path path (.vmlinux path h)
    · exact helf path path (.release rel path h h1 h2)
  kaslr := by
    intro k v v' hk hv hvv c hc
    have hd : D = detectKaslr t w k v := by
      rw [hD, detect_congr k hvv]
      unfold detectionAt
      rw [hk, hv]
    obtain ⟨h1, h2⟩ := initCell_spec (detectKaslr t w k v) c.kaslr
    have hcc := hc.kaslr
    rw [hd] at hcc
    have he : (kernelHostOf t dirs w src.debugSyms).kaslr k v c =
        ((initCell (detectKaslr t w k v) c.kaslr).1, { c with kaslr := (initCell (detectKaslr t w k v) c.kaslr).2 }) := rfl
    rw [he]
    refine ⟨?_, ⟨{ hc.base with elf := hc.base.elf }, hc.modmap, hc.depmod, ?_⟩⟩
    · rw [h1, hcc]
      have : (sourcesAt t dirs w (remembered s) src.debugSyms).kaslr k v' = cellOr c0.kaslr (detectKaslr t w k v) := by
        rw [detect_congr k hvv, ← hs]
        rfl
      rw [this]
      exact erel_refl (fun _ => rfl) _
    · rw [hd, h2]
      exact hcc
  modmap := by
    intro c hc
    obtain ⟨h1, h2⟩ := initCell_spec (loadModmap t w) c.modmap
    have he : (kernelHostOf t dirs w src.debugSyms).modmap c =
        ((initCell (loadModmap t w) c.modmap).1, { c with modmap := (initCell (loadModmap t w) c.modmap).2 }) := rfl
    rw [he]
    refine ⟨?_, ⟨{ hc.base with elf := hc.base.elf }, h2.trans hc.modmap, hc.depmod, hc.kaslr⟩⟩
    have : (modulesAt t dirs w (remembered s) src.debugSyms).modmap = cellOr c0.modmap (loadModmap t w) := by
      rw [← hs]
      rfl
    rw [h1, this, hc.modmap]
    exact erel_refl (fun _ => rfl) _
  depmod := by
    intro c hc
    obtain ⟨h1, h2⟩ := initCell_spec (loadDepmod w) c.depmod
    have he : (kernelHostOf t dirs w src.debugSyms).depmod c =
        ((initCell (loadDepmod w) c.depmod).1, { c with depmod := (initCell (loadDepmod w) c.depmod).2 }) := rfl
    rw [he]
    refine ⟨?_, ⟨{ hc.base with elf := hc.base.elf }, hc.modmap, h2.trans hc.depmod, hc.kaslr⟩⟩
    have : (modulesAt t dirs w (remembered s) src.debugSyms).depmod = cellOr c0.depmod (loadDepmod w) := by
      rw [← hs]
      rfl
    rw [h1, this, hc.depmod]
    exact erel_refl (fun _ => rfl) _
  decompress := rfl
  plain := by
    intro dir data name path h1 h2 h3 c hc
    have h1' : orNow c0.depmod (loadDepmod w) = .ok (dir, data) := by rw [← hs]; exact h1
    obtain ⟨g1, g2⟩ := helf path path (.module dir data name path h1' h2 h3) c hc
    refine ⟨?_, g2⟩
    show ERel _ _ ((kernelElfAt t dirs w src.debugSyms path path).map _)
    generalize ((kernelHostOf t dirs w src.debugSyms).elf path path c).1 = a at g1 ⊢
    generalize kernelElfAt t dirs w src.debugSyms path path = b at g1 ⊢
    cases g1 with
    | error e => exact .error e
    | ok x y hxy => exact .ok _ _ hxy.1
  temp := by
    intro dir data name path comp tmp h1 h2 h3 h4 c hc
    have h1' : orNow c0.depmod (loadDepmod w) = .ok (dir, data) := by rw [← hs]; exact h1
    obtain ⟨g1, g2⟩ := helf tmp _ (.temp dir data name path tmp comp h1' h2 h3 h4) c hc
    refine ⟨?_, g2⟩
    show ERel _ _ ((kernelElfAt t dirs w src.debugSyms tmp (withoutExtension path)).map _)
    generalize ((kernelHostOf t dirs w src.debugSyms).elf tmp (withoutExtension path) c).1 = a at g1 ⊢
    generalize kernelElfAt t dirs w src.debugSyms tmp (withoutExtension path) = b at g1 ⊢
    cases g1 with
    | error e => exact .error e
    | ok x y hxy => exact .ok _ _ hxy.1
  elfFn := rfl

theorem resolver_sim {Q : Option Bytes → Option Bytes → Prop} (hQ : ∀ x, Q x x) {src : KernelSource}
    (s : State M (KernelCache M))
    (hk : KernelSim (KernelNow E t w c0 D) t Q (kernelHostOf t dirs w src.debugSyms) src
      (sourcesAt t dirs w (remembered s) src.debugSyms) (modulesAt t dirs w (remembered s) src.debugSyms)) :
    Sim (KernelNow E t w c0 D)
      (fun g f => ∀ addr opts, Sim (KernelNow E t w c0 D) (FoundRel Q) (g addr opts) (f addr opts))
      (createKernelResolver t dirs w src) (kernelAt t dirs w (remembered s) src) := by
  unfold createKernelResolver kernelAt
  refine Sim.bind (create_sim hk) (fun e he => by simp only [he]) ?_
  intro r r' hr' hrr
  simp only [hr']
  exact Sim.lift (.ok _ _ fun addr opts => findSym_sim hQ hk hrr addr opts)

end Blazesym.Symbolize
