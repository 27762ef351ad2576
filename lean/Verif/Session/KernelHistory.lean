import Verif.Session.KernelInvariant

/-! # The invariants of the kernel cache hold after every history -/

set_option autoImplicit false

namespace Blazesym.Symbolize
open Blazesym.Util Blazesym.Cache Blazesym.Spec Blazesym.Spec.Symbolize Blazesym.Kernel Blazesym.Kernel.Depmod
open Blazesym.Dwarf hiding Resolver

/-! ### What a kernel resolver keeps -/

section Keeps
variable {S α β : Type}

/-- One computation after the other, if what the first one results in is known. -/
theorem Keeps.bind_inv {I : S → Prop} {a : Act S α} {f : α → Act S β} (P : α → Prop) (ha : Keeps I a)
    (hp : ∀ s x, I s → (a s).1 = .ok x → P x) (hf : ∀ x, P x → Keeps I (f x)) : Keeps I (a.bind f) := by
  intro s hs
  have h := ha s hs
  have h' := fun x => hp s x hs
  unfold Act.bind
  cases hr : a s with
  | mk r s' =>
    rw [hr] at h h'
    cases r with
    | error e => exact h
    | ok x => exact hf x (h' x rfl) s' h

/-- Everything the kernel resolver uses keeps a property; `Elf` are the ELF files it uses. -/
structure KernelKeeps (I : S → Prop) (h : KernelHost S) (Elf : Bytes → Bytes → Prop) (src : KernelSource) : Prop where
  ksym : ∀ path, Keeps I (h.ksym path)
  elf : ∀ actual represented, Elf actual represented → Keeps I (h.elf actual represented)
  kaslr : ∀ k v, Keeps I (h.kaslr k v)
  modmap : Keeps I h.modmap
  depmod : Keeps I h.depmod
  vmlinux : ∀ path, src.vmlinux = .some path → Elf path path
  release : ∀ rel path, src.vmlinux = .default → h.release = .ok rel → path ∈ vmlinuxPaths rel → Elf path path
  module : ∀ s x name path, I s → (h.depmod s).1 = .ok x → findPath x.1 x.2 name = .ok (some path) →
    (compression path = none → Elf path path) ∧
    ∀ c tmp, compression path = some c → h.decompress c path = .ok tmp → Elf tmp (withoutExtension path)

variable {I : S → Prop} {h : KernelHost S} {Elf : Bytes → Bytes → Prop} {src : KernelSource}

theorem create_keeps (hk : KernelKeeps I h Elf src) : Keeps I (h.create src.kallsyms src.vmlinux src.kaslr) := by
  unfold KernelHost.create
  refine Keeps.bind ?_ fun k => Keeps.bind ?_ fun v => ?_
  · unfold KernelHost.selectKsym
    cases src.kallsyms with
    | some path => exact (hk.ksym path).bind fun _ => Keeps.lift _
    | default => exact (hk.ksym _).mapResult _
    | none => exact Keeps.lift _
  · unfold KernelHost.selectVmlinux
    cases hv : src.vmlinux with
    | some path => exact (hk.elf path path (hk.vmlinux path hv)).bind fun _ => Keeps.lift _
    | default =>
      simp only
      cases hr : h.release with
      | error e => exact Keeps.lift _
      | ok rel =>
        simp only
        cases hf : (vmlinuxPaths rel).find? h.fileExists with
        | none => exact Keeps.lift _
        | some path => exact (hk.elf path path (hk.release rel path hv hr (List.mem_of_find?_eq_some hf))).mapResult _
    | none => exact Keeps.lift _
  · split
    · exact Keeps.lift _
    · cases src.kaslr with
      | some offset => exact Keeps.lift _
      | none =>
        simp only
        split
        · exact (hk.kaslr _ _).bind fun _ => Keeps.lift _
        · exact Keeps.lift _

theorem findSym_keeps (hk : KernelKeeps I h Elf src) (r : KernelParts (List Ksym) ElfResolver) (addr : Nat)
    (opts : FindSymOpts) : Keeps I (h.findSym r addr opts) := by
  unfold KernelHost.findSym
  cases r.vmlinux with
  | none =>
    cases r.ksym with
    | none => exact Keeps.lift _
    | some k => exact Keeps.lift _
  | some v =>
    simp only
    refine hk.modmap.bind fun mods => ?_
    cases findModule mods addr with
    | error e => exact Keeps.lift _
    | ok x =>
      cases x with
      | error e => exact Keeps.lift _
      | ok nb =>
        simp only
        unfold KernelHost.findInModule
        refine hk.depmod.bind_inv (fun x => ∀ name path, findPath x.1 x.2 name = .ok (some path) →
          (compression path = none → Elf path path) ∧
          ∀ c tmp, compression path = some c → h.decompress c path = .ok tmp → Elf tmp (withoutExtension path))
          (fun s x hs hx name path hp => hk.module s x name path hs hx hp) ?_
        intro x hx
        cases hp : findPath x.1 x.2 nb.1 with
        | error e => exact Keeps.lift _
        | ok o =>
          cases o with
          | none => exact Keeps.lift _
          | some path =>
            simp only
            refine Keeps.bind ?_ fun _ => Keeps.lift _
            obtain ⟨h1, h2⟩ := hx _ path hp
            unfold KernelHost.moduleResolver
            cases hc : compression path with
            | none => exact hk.elf _ _ (h1 hc)
            | some c =>
              simp only
              cases hd : h.decompress c path with
              | error e => exact Keeps.lift _
              | ok tmp => exact hk.elf _ _ (h2 c tmp hc hd)

end Keeps

variable {M : Type} [DecidableEq M]

/-! ### Requests and other calls -/

/-- A request for the kernel with one source, and nothing else. -/
def oneKernelHost (cfg : Settings M (KernelCache M)) (w : World M) (src : KernelSource) : Host (State M (KernelCache M)) :=
  { kernelHost cfg w with kernel := fun _ => (host cfg w).kernel src }

theorem kernel_fn_standard {cfg : Settings M (KernelCache M)} (hst : Standard cfg) {w : World M} {src : KernelSource}
    {s : State M (KernelCache M)} {f : ActFn (State M (KernelCache M))} (hf : ((host cfg w).kernel src s).1 = .ok f) :
    ∃ r, f = fun addr opts => on State.kernel (fun s kernel => { s with kernel })
      ((kernelHostOf cfg.tools cfg.debugDirs w src.debugSyms).findSym r addr opts) := by
  have hz : (host cfg w).kernel src s =
      match (cfg.kernel w src s.kernel).1 with
      | .error e => (.error e, { s with kernel := (cfg.kernel w src s.kernel).2 })
      | .ok g => (.ok fun addr opts => on State.kernel (fun s kernel => { s with kernel }) (g addr opts),
          { s with kernel := (cfg.kernel w src s.kernel).2 }) := by
    show Act.bind _ _ s = _
    unfold Act.bind on Act.zoom
    simp only
    cases (cfg.kernel w src s.kernel).1 <;> rfl
  rw [hz, hst.2] at hf
  unfold createKernelResolver Act.bind at hf
  cases hc : (kernelHostOf cfg.tools cfg.debugDirs w src.debugSyms).create src.kallsyms src.vmlinux src.kaslr s.kernel with
  | mk r c =>
    rw [hc] at hf
    cases r with
    | error e => cases hf
    | ok r =>
      simp only [Act.lift] at hf
      cases hf
      exact ⟨r, rfl⟩

theorem oneKernel_keeps {cfg : Settings M (KernelCache M)} (hst : Standard cfg) {w : World M} {src : KernelSource}
    {I : KernelCache M → Prop} {Elf : Bytes → Bytes → Prop}
    (hk : KernelKeeps I (kernelHostOf cfg.tools cfg.debugDirs w src.debugSyms) Elf src) :
    HostKeeps (fun s => I s.kernel) (oneKernelHost cfg w src) where
  apk := fun _ _ _ _ => Keeps.lift _
  breakpad := fun _ => Keeps.lift _
  elf := fun _ _ _ => Keeps.lift _
  kernel := by
    intro _
    refine Keeps.bind (fun s hs => ?_) fun _ => Keeps.lift _
    have : Keeps I (cfg.kernel w src) := by
      rw [hst.2]
      exact (create_keeps hk).bind fun _ => Keeps.lift _
    exact this s.kernel hs
  kernelFn := by
    intro src' s f hf addr opts
    obtain ⟨r, rfl⟩ := kernel_fn_standard hst (src := src) hf
    intro s' hs'
    exact findSym_keeps hk r addr opts s'.kernel hs'
  gsymFile := fun _ => Keeps.lift _
  perfMap := fun _ => Keeps.lift _
  vdso := fun _ _ _ => Keeps.lift _
  maps := fun _ => Keeps.lift _
  dispatch := fun _ _ _ => Keeps.lift _

/-- Requests for the kernel keep what the kernel resolver keeps. -/
theorem kernel_request {cfg : Settings M (KernelCache M)} (hst : Standard cfg) {w : World M} {src : KernelSource}
    {I : KernelCache M → Prop} {Elf : Bytes → Bytes → Prop}
    (hk : KernelKeeps I (kernelHostOf cfg.tools cfg.debugDirs w src.debugSyms) Elf src)
    (s : State M (KernelCache M)) (hs : I s.kernel) :
    (∀ input, I (s.symbolize cfg w (.kernel src) input).2.kernel) ∧
      ∀ input, I (s.symbolizeSingle cfg w (.kernel src) input).2.kernel :=
  ⟨fun input => symbolize_keeps (oneKernel_keeps hst hk) (.kernel src) input s hs,
    fun input => symbolizeSingle_keeps (oneKernel_keeps hst hk) (.kernel src) input s hs⟩

/-- The symbolizer without a kernel. -/
def noKernelHost (cfg : Settings M (KernelCache M)) (w : World M) : Host (State M (KernelCache M)) :=
  { host cfg w with kernel := fun _ => .lift (.error .panic) }

theorem noKernel_keeps {cfg : Settings M (KernelCache M)} {w : World M} (c : KernelCache M) :
    HostKeeps (fun s => s.kernel = c) (noKernelHost cfg w) where
  apk := fun _ _ _ _ _ h => h
  breakpad := fun _ _ h => h
  elf := fun _ _ _ _ h => h
  kernel := fun _ => Keeps.lift _
  kernelFn := by intro src s f hf; cases hf
  gsymFile := fun _ _ h => h
  perfMap := fun _ _ h => h
  vdso := fun _ _ _ _ h => h
  maps := fun _ _ h => h
  dispatch := fun _ _ _ _ h => h

theorem walkLoop_noKernel (cfg : Settings M (KernelCache M)) (w : World M) (src : ProcessSource) (addrs : List Nat)
    (prev : Nat) (entry : Maps.Entry) (items : Normalize.Source) (out : List Symbolized) :
    (host cfg w).walkLoop src addrs prev entry items out = (noKernelHost cfg w).walkLoop src addrs prev entry items out := by
  induction addrs generalizing prev entry items out with
  | nil => rfl
  | cons a rest ih =>
    simp only [Host.walkLoop, ih]
    rfl

theorem userAddrs_noKernel (cfg : Settings M (KernelCache M)) (w : World M) (src : ProcessSource) (addrs : List Nat) :
    (host cfg w).symbolizeUserAddrs src addrs = (noKernelHost cfg w).symbolizeUserAddrs src addrs := by
  unfold Host.symbolizeUserAddrs Host.walk
  simp only [walkLoop_noKernel]
  rfl

theorem impl_noKernel (cfg : Settings M (KernelCache M)) (w : World M) (src : Source) (hs : ∀ k, src ≠ .kernel k)
    (input : Input (List Nat)) (fold : Err → Except Err Symbolized) :
    (host cfg w).symbolizeImpl src input fold = (noKernelHost cfg w).symbolizeImpl src input fold := by
  cases src with
  | kernel k => exact (hs k rfl).elim
  | process p =>
    unfold Host.symbolizeImpl
    simp only [userAddrs_noKernel]
  | _ => rfl

/-- Other calls do not change what is kept about the kernel. -/
theorem kernel_same {cfg : Settings M (KernelCache M)} {w : World M} (s : State M (KernelCache M)) (c : Call)
    (hc : ∀ src, ¬ KernelCall src c) : (after cfg w s c).kernel = s.kernel := by
  cases c with
  | symbolize src input =>
    have he : (host cfg w).symbolize src input = (noKernelHost cfg w).symbolize src input :=
      impl_noKernel cfg w src (fun k h => hc k h) input _
    show ((host cfg w).symbolize src input s).2.kernel = _
    rw [he]
    exact symbolize_keeps (noKernel_keeps s.kernel) src input s rfl
  | symbolizeSingle src input =>
    have he : (host cfg w).symbolizeSingle src input = (noKernelHost cfg w).symbolizeSingle src input := by
      unfold Host.symbolizeSingle
      simp only [impl_noKernel cfg w src fun k h => hc k h]
    show ((host cfg w).symbolizeSingle src input s).2.kernel = _
    rw [he]
    exact symbolizeSingle_keeps (noKernel_keeps s.kernel) src input s rfl
  | cache fill req => cases req <;> rfl
  | evict req =>
    cases req with
    | elf path =>
      simp only [after, State.evict]
      cases s.elf.evict path with
      | mk r elf => cases r <;> rfl
    | process pid =>
      simp only [after, State.evict]
      cases s.perfMap.evict (PerfMap.path (resolvePid w pid)) with
      | mk r perfMap => cases r <;> rfl
  | register path resolver => rfl

/-- An invariant of the kernel cache, if requests for the kernel keep it. -/
theorem kernel_after {cfg : Settings M (KernelCache M)} (hst : Standard cfg) {w : World M}
    {I : KernelCache M → Prop} (s : State M (KernelCache M)) (hs : I s.kernel) (c : Call)
    (hk : ∀ src, KernelCall src c →
      ∃ Elf, KernelKeeps I (kernelHostOf cfg.tools cfg.debugDirs w src.debugSyms) Elf src) :
    I (after cfg w s c).kernel := by
  by_cases hc : ∃ src, KernelCall src c
  · obtain ⟨src, hc⟩ := hc
    obtain ⟨Elf, hk'⟩ := hk src hc
    cases c with
    | symbolize src' input => have hc : src' = .kernel src := hc; subst hc; exact (kernel_request hst hk' s hs).1 input
    | symbolizeSingle src' input => have hc : src' = .kernel src := hc; subst hc; exact (kernel_request hst hk' s hs).2 input
    | cache _ _ => exact hc.elim
    | evict _ => exact hc.elim
    | register _ _ => exact hc.elim
  · rw [kernel_same s c fun src h => hc ⟨src, h⟩]
    exact hs

/-! ### Loose and exact -/

/-- A property of the cache that is kept whichever ELF files are used. -/
theorem any_keeps {w : World M} {t : Tools} {dirs : List Bytes} {src : KernelSource} {I : KernelCache M → Prop}
    (hksym : ∀ path, Keeps I ((kernelHostOf t dirs w src.debugSyms).ksym path))
    (helf : ∀ actual represented, Keeps I ((kernelHostOf t dirs w src.debugSyms).elf actual represented))
    (hkaslr : ∀ k v, Keeps I ((kernelHostOf t dirs w src.debugSyms).kaslr k v))
    (hmodmap : Keeps I (kernelHostOf t dirs w src.debugSyms).modmap)
    (hdepmod : Keeps I (kernelHostOf t dirs w src.debugSyms).depmod) :
    KernelKeeps I (kernelHostOf t dirs w src.debugSyms) (fun _ _ => True) src :=
  ⟨hksym, fun a r _ => helf a r, hkaslr, hmodmap, hdepmod, fun _ _ => trivial, fun _ _ _ _ _ => trivial,
    fun _ _ _ _ _ _ _ => ⟨fun _ => trivial, fun _ _ _ _ => trivial⟩⟩

variable {t : Tools} {dirs : List Bytes}

theorem base_loose_keeps (w : World M) (src : KernelSource) :
    KernelKeeps (KernelBase (LooseElf w.disk.contents) w.disk.contents) (kernelHostOf t dirs w src.debugSyms)
      (fun _ _ => True) src := by
  refine any_keeps ?_ ?_ ?_ ?_ ?_
  · intro path c hc
    exact (now_ksym (t := t) (dirs := dirs) src.debugSyms path c (KernelNow.start hc (.error .panic))).base
  · intro actual represented c hc
    exact (now_elf (t := t) (dirs := dirs) (fun c ds a r h _ _ => loose_elf c ds a r h) src.debugSyms actual represented c
      (KernelNow.start hc (.error .panic))).base
  · exact fun _ _ _ hc => { hc with elf := hc.elf }
  · exact fun _ hc => { hc with elf := hc.elf }
  · exact fun _ hc => { hc with elf := hc.elf }

theorem base_new {E : ElfCache Bytes M (Except Err Bytes) ElfParser DebugData → Prop}
    {contents : M → Except Err (Except Err Bytes)} (hE : E (FileCache.new true)) :
    KernelBase E contents (KernelCache.new : KernelCache M) :=
  ⟨hE, noPins_new _, rfl, faithful_new _ _ _, noPins_new _, rfl⟩

theorem kernel_loose {cfg : Settings M (KernelCache M)} (hst : Standard cfg)
    {contents : M → Except Err (Except Err Bytes)} {s : State M (KernelCache M)}
    (hr : Reachable cfg (SameContents contents) s) : KernelBase (LooseElf contents) contents s.kernel := by
  induction hr with
  | new =>
    show KernelBase _ _ cfg.kernelNew
    rw [hst.1]
    exact base_new (faithful_new _ _ _)
  | call s w c _ ho ih =>
    obtain ⟨rfl, _⟩ := ho
    exact kernel_after hst s ih c fun src _ => ⟨_, base_loose_keeps w src⟩

theorem exact_elf {k : Known M} {w : World M} (hc : w.disk.contents = k.contents) (debugSyms : Bool)
    (actual represented : Bytes)
    (hf : ∀ m, w.disk.stat actual = .ok m → k.name m = represented ∧
      (debugSyms = true → k.elf.Settled (fromParser t w.files dirs) w.disk.stat m))
    {c0 : KernelCache M} {D : Except Err Nat} (c : KernelCache M)
    (h : KernelNow (Faithful k.contents (ElfCache.ElfVal k.elf)) t w c0 D c) :
    ((kernelHostOf t dirs w debugSyms).elf actual represented c).1 =
      kernelElfAt t dirs w debugSyms actual represented ∧
    KernelNow (Faithful k.contents (ElfCache.ElfVal k.elf)) t w c0 D
      ((kernelHostOf t dirs w debugSyms).elf actual represented c).2 := by
  obtain ⟨h1, h2, h3⟩ := kernelElf_exact (t := t) (dirs := dirs) hc actual represented debugSyms h.base.elf
    (elf_pins h.base.elfPins h.base.elfAuto) hf
  exact ⟨h1, ⟨{ h.base with elf := h2, elfPins := h.base.elfPins.frame h3, elfAuto := h3.autoReload.trans h.base.elfAuto },
    h.modmap, h.depmod, h.kaslr⟩⟩

/-- The exact invariant in a request: also the index stays the same. -/
theorem base_exact_keeps {k : Known M} {w : World M} (hc : w.disk.contents = k.contents) (c0 : KernelCache M)
    (src : KernelSource)
    (hf : ∀ actual represented, KernelFile w (orNow c0.depmod (loadDepmod w)) src actual represented →
      ∀ m, w.disk.stat actual = .ok m → k.name m = represented ∧
        (src.debugSyms = true → k.elf.Settled (fromParser t w.files dirs) w.disk.stat m)) :
    KernelKeeps (fun c => KernelBase (Faithful k.contents (ElfCache.ElfVal k.elf)) w.disk.contents c ∧
        cellOr c.depmod (loadDepmod w) = cellOr c0.depmod (loadDepmod w)) (kernelHostOf t dirs w src.debugSyms)
      (KernelFile w (orNow c0.depmod (loadDepmod w)) src) src where
  ksym := by
    intro path c hc
    exact ⟨(now_ksym (t := t) (dirs := dirs) src.debugSyms path c (KernelNow.start hc.1 (.error .panic))).base, hc.2⟩
  elf := by
    intro actual represented hfile c hcc
    have := (exact_elf (t := t) (dirs := dirs) hc src.debugSyms actual represented (hf actual represented hfile) c
      (KernelNow.start hcc.1 (.error .panic))).2
    exact ⟨this.base, this.depmod.trans hcc.2⟩
  kaslr := fun _ _ _ hc => ⟨{ hc.1 with elf := hc.1.elf }, hc.2⟩
  modmap := fun _ hc => ⟨{ hc.1 with elf := hc.1.elf }, hc.2⟩
  depmod := by
    intro c hcc
    obtain ⟨_, h2⟩ := initCell_spec (loadDepmod w) c.depmod
    exact ⟨{ hcc.1 with elf := hcc.1.elf }, h2.trans hcc.2⟩
  vmlinux := fun path h => .vmlinux path h
  release := fun rel path h1 h2 h3 => .release rel path h1 h2 h3
  module := by
    rintro c ⟨dir, data⟩ name path hcc hx hp
    have h1 : orNow c0.depmod (loadDepmod w) = .ok (dir, data) := by
      show cellOr c0.depmod (loadDepmod w) = _
      rw [← hcc.2, ← (initCell_spec (loadDepmod w) c.depmod).1]
      exact hx
    exact ⟨fun h => .module dir data name path h1 hp h, fun comp tmp h g => .temp dir data name path tmp comp h1 hp h g⟩

theorem kernel_exact {cfg : Settings M (KernelCache M)} (hst : Standard cfg) {k : Known M} {s : State M (KernelCache M)}
    (hr : Reachable cfg (KernelOrderly cfg k) s) :
    KernelBase (Faithful k.contents (ElfCache.ElfVal k.elf)) k.contents s.kernel := by
  induction hr with
  | new =>
    show KernelBase _ _ cfg.kernelNew
    rw [hst.1]
    exact base_new (faithful_new _ _ _)
  | call s w c _ ho ih =>
    obtain ⟨hc, ho⟩ := ho
    have := kernel_after hst (I := fun c => KernelBase (Faithful k.contents (ElfCache.ElfVal k.elf)) w.disk.contents c ∧
        cellOr c.depmod (loadDepmod w) = cellOr s.kernel.depmod (loadDepmod w)) s ⟨by rw [hc]; exact ih, rfl⟩ c
      (w := w) fun src hsrc => ⟨_, base_exact_keeps hc s.kernel src (by
        cases c with
        | symbolize src' input => cases hsrc; exact ho
        | symbolizeSingle src' input => cases hsrc; exact ho
        | cache _ _ => exact hsrc.elim
        | evict _ => exact hsrc.elim
        | register _ _ => exact hsrc.elim)⟩
    rw [hc] at this
    exact this.1

end Blazesym.Symbolize
