import Verif.Session.KernelHistory
import Verif.Kernel.DepmodProps
import Verif.Kernel.KaslrProps

/-! # Property theorems C70: symbolization with the kernel as source, by a symbolizer that is used for long -/

set_option autoImplicit false

namespace Blazesym.Symbolize
open Blazesym.Util Blazesym.Cache Blazesym.Spec Blazesym.Spec.Symbolize Blazesym.Kernel Blazesym.Kernel.Depmod
open Blazesym.Dwarf hiding Resolver

variable {M : Type} [DecidableEq M]

theorem zoom_sim {α β : Type} {I : KernelCache M → Prop} {R : α → β → Prop} {a : Act (KernelCache M) α}
    {v : Except Err β} (vmas : Nat → Option (List Maps.Entry)) (h : Sim I R a v) :
    Sim (fun s : State M (KernelCache M) => I s.kernel ∧ s.vmas = vmas) R
      (on State.kernel (fun s kernel => { s with kernel }) a) v :=
  fun s hs => ⟨(h s.kernel hs.1).1, (h s.kernel hs.1).2, hs.2⟩

theorem host_kernel {cfg : Settings M (KernelCache M)} (hst : Standard cfg) {w : World M} {src : KernelSource}
    {I : KernelCache M → Prop} {Q : Option Bytes → Option Bytes → Prop} (s0 : State M (KernelCache M))
    (hQ : ∀ x, Q x x)
    (hs : Sim I (fun g f => ∀ addr opts, Sim I (FoundRel Q) (g addr opts) (f addr opts))
      (createKernelResolver cfg.tools cfg.debugDirs w src) (kernelAt cfg.tools cfg.debugDirs w (remembered s0) src)) :
    HostSim (fun s => I s.kernel ∧ s.vmas = s0.vmas) Q (fun l => l = .kernel src) (host cfg w)
      (withDispatch (envWithKernel cfg w s0) none) where
  opts := rfl
  demangle := rfl
  demangler := rfl
  apk := fun _ _ _ _ h => by cases h
  breakpad := fun _ h => by cases h
  elf := fun _ _ _ h => by cases h
  kernel := by
    rintro _ ⟨⟩
    show Sim _ _ (Act.bind _ _) (kernelAt cfg.tools cfg.debugDirs w (remembered s0) src)
    rw [hst.2]
    refine Sim.bind (zoom_sim s0.vmas hs) (fun e he => he) ?_
    intro g f hf hgf
    rw [hf]
    exact Sim.lift (.ok _ _ fun addr => zoom_sim s0.vmas (hgf addr _))
  gsymData := fun _ => erel_refl (fn_refl' hQ) _
  gsymFile := fun _ h => by cases h
  perfMap := fun _ h => by cases h
  vdso := fun _ _ _ h => by cases h
  maps := by
    intro pid s hs
    refine ⟨?_, hs⟩
    simp only [host, withDispatch, envWithKernel, envAt, hs.2]
    exact erel_refl (fun _ => rfl) _
  byName := by
    intro f hf
    cases hf
  dispatch := fun _ _ _ _ h => by cases h

theorem uses_kernel {maps : Nat → Except Err (List (Except Err Maps.Entry))} {src : KernelSource} {l : Lookup}
    (h : Uses maps (.kernel src) l) : l = .kernel src := by
  cases h
  rfl

/-- Both kinds of requests. -/
theorem kernel_answers {cfg : Settings M (KernelCache M)} (hst : Standard cfg) {w : World M} {src : KernelSource}
    {I : KernelCache M → Prop} {Q : Option Bytes → Option Bytes → Prop} (s : State M (KernelCache M)) (hI : I s.kernel)
    (hQ : ∀ x, Q x x)
    (hs : Sim I (fun g f => ∀ addr opts, Sim I (FoundRel Q) (g addr opts) (f addr opts))
      (createKernelResolver cfg.tools cfg.debugDirs w src) (kernelAt cfg.tools cfg.debugDirs w (remembered s) src)) :
    (∀ input, ERel (List.Forall₂ (OutRel Q)) (s.symbolize cfg w (.kernel src) input).1
        (symbolize (envWithKernel cfg w s) (.kernel src) input) ∧ I (s.symbolize cfg w (.kernel src) input).2.kernel) ∧
    ∀ input, ERel (OutRel Q) (s.symbolizeSingle cfg w (.kernel src) input).1
        (symbolizeSingle (envWithKernel cfg w s) (.kernel src) input) ∧
      I (s.symbolizeSingle cfg w (.kernel src) input).2.kernel := by
  have hh := host_kernel hst s hQ hs
  refine ⟨fun input => ?_, fun input => ?_⟩
  · obtain ⟨h1, h2⟩ := symbolize_sim hh (.kernel src) input (fun l hl => uses_kernel hl) s ⟨hI, rfl⟩
    exact ⟨h1, h2.1⟩
  · obtain ⟨h1, h2⟩ := symbolizeSingle_sim hh (.kernel src) input (fun l hl => uses_kernel hl) s ⟨hI, rfl⟩
    exact ⟨h1, h2.1⟩

/-- What is known in a request for symbols without debug information. -/
theorem loose_sim {cfg : Settings M (KernelCache M)} {w : World M} (s : State M (KernelCache M))
    {src : KernelSource} (hds : src.debugSyms = false) (ht : TextKallsyms w src) :
    Sim (KernelNow (LooseElf w.disk.contents) cfg.tools w s.kernel
        (detectionAt cfg.tools cfg.debugDirs w (remembered s) src))
      (fun g f => ∀ addr opts, Sim (KernelNow (LooseElf w.disk.contents) cfg.tools w s.kernel
        (detectionAt cfg.tools cfg.debugDirs w (remembered s) src)) (FoundRel fun _ _ => True) (g addr opts) (f addr opts))
      (createKernelResolver cfg.tools cfg.debugDirs w src) (kernelAt cfg.tools cfg.debugDirs w (remembered s) src) := by
  refine resolver_sim (fun _ => trivial) s (kernel_sim ht s rfl rfl ?_)
  intro actual represented _ c hc
  refine ⟨?_, now_elf (fun c ds a r h _ _ => loose_elf c ds a r h) _ actual represented c hc⟩
  obtain ⟨name, h⟩ := (kernelElf_loose (t := cfg.tools) (dirs := cfg.debugDirs) actual represented src.debugSyms
    hc.base.elf).2.2 hds
  show ERel _ (kernelElfOn cfg.tools cfg.debugDirs w src.debugSyms actual represented c.elf).1 _
  rw [h, elf_pins hc.base.elfPins hc.base.elfAuto]
  unfold kernelElfAt elfAt
  simp only [hds, Bool.false_eq_true, if_false]
  cases fileOf w (w.disk.stat actual) with
  | error e => exact .error e
  | ok f =>
    simp only
    cases f with
    | error e => exact .error e
    | ok data => exact .ok _ _ (elfRel_name cfg.tools _ _ _)

/-- **C70** (symbols) Whatever happened before, kernel addresses are symbolized, without debug
information, as if all files were opened anew: only the list of modules, the index of their files and the
KASLR offset are remembered. Only the module that is reported may be different: it is a name of the file
that was used once. -/
theorem C70_kernel {cfg : Settings M (KernelCache M)} (hst : Standard cfg)
    {contents : M → Except Err (Except Err Bytes)} {s : State M (KernelCache M)}
    (hr : Reachable cfg (SameContents contents) s) (w : World M) (hw : w.disk.contents = contents)
    (src : KernelSource) (hds : src.debugSyms = false) (ht : TextKallsyms w src) :
    (∀ input, ERel (List.Forall₂ (OutRel fun _ _ => True)) (s.symbolize cfg w (.kernel src) input).1
      (symbolize (envWithKernel cfg w s) (.kernel src) input)) ∧
    ∀ input, ERel (OutRel fun _ _ => True) (s.symbolizeSingle cfg w (.kernel src) input).1
      (symbolizeSingle (envWithKernel cfg w s) (.kernel src) input) := by
  subst hw
  obtain ⟨h1, h2⟩ := kernel_answers hst s (KernelNow.start (kernel_loose hst hr) _) (fun _ => trivial)
    (loose_sim s hds ht)
  exact ⟨fun input => (h1 input).1, fun input => (h2 input).1⟩

theorem cell_before {T : Type} {c c0 : Option T} {now : Except Err T} {x : T} (h : cellOr c now = cellOr c0 now)
    (hc : c = some x) : orNow c0 now = .ok x := by
  subst hc
  exact h.symm

/-- **C70** (what is remembered) After a request, nothing is remembered but what was before, and what
this request found: the modules that are loaded, the index for the running kernel, and the KASLR offset
for the files of this request. -/
theorem C70_remembers {cfg : Settings M (KernelCache M)} (hst : Standard cfg)
    {contents : M → Except Err (Except Err Bytes)} {s : State M (KernelCache M)}
    (hr : Reachable cfg (SameContents contents) s) (w : World M) (hw : w.disk.contents = contents)
    (src : KernelSource) (hds : src.debugSyms = false) (ht : TextKallsyms w src) (s' : State M (KernelCache M))
    (hs' : (∃ input, s' = (s.symbolize cfg w (.kernel src) input).2) ∨
      ∃ input, s' = (s.symbolizeSingle cfg w (.kernel src) input).2) :
    (∀ mods, (remembered s').modules = some mods → orNow (remembered s).modules (loadModmap cfg.tools w) = .ok mods) ∧
    (∀ index, (remembered s').index = some index → orNow (remembered s).index (loadDepmod w) = .ok index) ∧
    ∀ offset, (remembered s').kaslr = some offset → orNow (remembered s).kaslr
      (detectionAt cfg.tools cfg.debugDirs w (remembered s) src) = .ok offset := by
  subst hw
  obtain ⟨h1, h2⟩ := kernel_answers hst s (KernelNow.start (kernel_loose hst hr) _) (fun _ => trivial)
    (loose_sim s hds ht)
  have h : KernelNow (LooseElf w.disk.contents) cfg.tools w s.kernel
      (detectionAt cfg.tools cfg.debugDirs w (remembered s) src) s'.kernel := by
    rcases hs' with ⟨input, rfl⟩ | ⟨input, rfl⟩
    · exact (h1 input).2
    · exact (h2 input).2
  exact ⟨fun _ hx => cell_before h.modmap hx, fun _ hx => cell_before h.depmod hx, fun _ hx => cell_before h.kaslr hx⟩

/-- **C70** (partial: debug information) The same with debug information, and with the module that is
reported. Missing: a file that was used under several names, and debug files that appeared, disappeared
or were replaced while the file they belong to stayed the same. -/
theorem C70_debug_partial {cfg : Settings M (KernelCache M)} (hst : Standard cfg) {k : Known M}
    {s : State M (KernelCache M)} (hr : Reachable cfg (KernelOrderly cfg k) s) (w : World M)
    (hw : w.disk.contents = k.contents) (src : KernelSource) (hf : KernelFits cfg k w s src) (ht : TextKallsyms w src) :
    (∀ input, (s.symbolize cfg w (.kernel src) input).1 = symbolize (envWithKernel cfg w s) (.kernel src) input) ∧
    ∀ input, (s.symbolizeSingle cfg w (.kernel src) input).1 =
      symbolizeSingle (envWithKernel cfg w s) (.kernel src) input := by
  have hb := kernel_exact hst hr
  rw [← hw] at hb
  have hb' : KernelBase (Faithful k.contents (ElfCache.ElfVal k.elf)) w.disk.contents s.kernel := by
    rw [← hw]
    exact hb
  obtain ⟨h1, h2⟩ := kernel_answers hst s (KernelNow.start hb' (detectionAt cfg.tools cfg.debugDirs w (remembered s) src))
    (Q := Eq) (fun _ => rfl) (resolver_sim (fun _ => rfl) s (kernel_sim (t := cfg.tools) ht s rfl rfl (by
      intro actual represented hfile c hc
      obtain ⟨g1, g2⟩ := exact_elf (t := cfg.tools) (dirs := cfg.debugDirs) hw src.debugSyms actual represented
        (hf actual represented hfile) c hc
      refine ⟨?_, g2⟩
      rw [g1]
      exact erel_refl (elfRel_refl cfg.tools fun _ => rfl) _)))
  exact ⟨fun input => erel_eq (fun _ _ => outs_eq) (h1 input).1, fun input => erel_eq (fun _ _ => out_eq) (h2 input).1⟩

/-! ### What is remembered, stays -/

theorem cells_keep {t : Tools} {dirs : List Bytes} (w : World M) (src : KernelSource) (r : Remembered) :
    KernelKeeps (fun c : KernelCache M => (∀ x, r.modules = some x → c.modmap = some x) ∧
        (∀ x, r.index = some x → c.depmod = some x) ∧ ∀ x, r.kaslr = some x → c.kaslr = some x)
      (kernelHostOf t dirs w src.debugSyms) (fun _ _ => True) src := by
  have hkeep : ∀ {T : Type} (init : Except Err T) (cell : Option T) (x : T), cell = some x →
      (initCell init cell).2 = some x := by
    intro T init cell x h
    subst h
    rfl
  refine any_keeps (fun _ _ h => h) (fun _ _ _ h => h) ?_ ?_ ?_
  · exact fun k v c h => ⟨h.1, h.2.1, fun x hx => hkeep _ _ _ (h.2.2 x hx)⟩
  · exact fun c h => ⟨fun x hx => hkeep _ _ _ (h.1 x hx), h.2.1, h.2.2⟩
  · exact fun c h => ⟨h.1, fun x hx => hkeep _ _ _ (h.2.1 x hx), h.2.2⟩

/-- **C70** (it stays) What is remembered is never forgotten or replaced, whatever is called. -/
theorem C70_stays {cfg : Settings M (KernelCache M)} (hst : Standard cfg) {ok : State M (KernelCache M) → World M → Call → Prop}
    {s s' : State M (KernelCache M)} (hl : Later cfg ok s s') :
    (∀ mods, (remembered s).modules = some mods → (remembered s').modules = some mods) ∧
    (∀ index, (remembered s).index = some index → (remembered s').index = some index) ∧
    ∀ offset, (remembered s).kaslr = some offset → (remembered s').kaslr = some offset := by
  induction hl with
  | now => exact ⟨fun _ h => h, fun _ h => h, fun _ h => h⟩
  | call s' w c _ _ ih => exact kernel_after hst s' ih c fun src _ => ⟨_, cells_keep w src (remembered s)⟩

/-- What holds of everything that is found holds of everything that is remembered. -/
theorem found_keep {t : Tools} {dirs : List Bytes} (w : World M) (src : KernelSource) {P1 : List Mod → Prop}
    {P2 : Bytes × Bytes → Prop} {P3 : Nat → Prop} (h1 : ∀ x, loadModmap t w = .ok x → P1 x)
    (h2 : ∀ x, loadDepmod w = .ok x → P2 x) (h3 : ∀ k v x, detectKaslr t w k v = .ok x → P3 x) :
    KernelKeeps (fun c : KernelCache M => (∀ x, c.modmap = some x → P1 x) ∧ (∀ x, c.depmod = some x → P2 x) ∧
        ∀ x, c.kaslr = some x → P3 x)
      (kernelHostOf t dirs w src.debugSyms) (fun _ _ => True) src := by
  have hcell : ∀ {T : Type} (init : Except Err T) (cell : Option T) (x : T), (initCell init cell).2 = some x →
      cell = some x ∨ init = .ok x := by
    intro T init cell x h
    cases cell with
    | some y => exact Or.inl h
    | none =>
      cases init with
      | error e => cases h
      | ok y => cases h; exact Or.inr rfl
  refine any_keeps (fun _ _ h => h) (fun _ _ _ h => h) ?_ ?_ ?_
  · exact fun k v c h => ⟨h.1, h.2.1, fun x hx => (hcell _ _ _ hx).elim (h.2.2 x) (h3 k v x)⟩
  · exact fun c h => ⟨fun x hx => (hcell _ _ _ hx).elim (h.1 x) (h1 x), h.2.1, h.2.2⟩
  · exact fun c h => ⟨h.1, fun x hx => (hcell _ _ _ hx).elim (h.2.1 x) (h2 x), h.2.2⟩

/-- **C70** (where it comes from) The modules and the index that are remembered are those that there
were in a world where a request for the kernel was made. -/
theorem C70_origin {cfg : Settings M (KernelCache M)} (hst : Standard cfg) {ok : State M (KernelCache M) → World M → Call → Prop}
    {s : State M (KernelCache M)} (hr : Reachable cfg ok s) :
    (∀ mods, (remembered s).modules = some mods → ∃ s0 w c src, Reachable cfg ok s0 ∧ ok s0 w c ∧ KernelCall src c ∧
      loadModmap cfg.tools w = .ok mods) ∧
    (∀ index, (remembered s).index = some index → ∃ s0 w c src, Reachable cfg ok s0 ∧ ok s0 w c ∧ KernelCall src c ∧
      loadDepmod w = .ok index) ∧
    ∀ offset, (remembered s).kaslr = some offset → ∃ s0 w c src k v, Reachable cfg ok s0 ∧ ok s0 w c ∧ KernelCall src c ∧
      detectKaslr cfg.tools w k v = .ok offset := by
  induction hr with
  | new =>
    have h : (State.new cfg).kernel = KernelCache.new := hst.1
    simp only [remembered, h]
    exact ⟨fun _ hx => (by cases hx), fun _ hx => (by cases hx), fun _ hx => (by cases hx)⟩
  | call s w c hr ho ih =>
    exact kernel_after hst s ih c fun src hsrc => ⟨_, found_keep w src
      (fun x hx => ⟨s, w, c, src, hr, ho, hsrc, hx⟩) (fun x hx => ⟨s, w, c, src, hr, ho, hsrc, hx⟩)
      (fun k v x hx => ⟨s, w, c, src, k, v, hr, ho, hsrc, hx⟩)⟩

theorem kernelAt_remembered {t : Tools} {dirs : List Bytes} {w : World M} {mods : Except Err (List Mod)}
    {index : Except Err (Bytes × Bytes)} {offset : Nat} (hs : SameSystem t mods index offset w) (r : Remembered)
    (h1 : ∀ x, r.modules = some x → mods = .ok x) (h2 : ∀ x, r.index = some x → index = .ok x)
    (h3 : ∀ x, r.kaslr = some x → x = offset) (src : KernelSource) :
    kernelAt t dirs w r src = kernelAt t dirs w ⟨none, none, none⟩ src := by
  have g1 : orNow r.modules (loadModmap t w) = loadModmap t w := by
    cases hr : r.modules with
    | none => rfl
    | some x => rw [hs.1, h1 x hr]; rfl
  have g2 : orNow r.index (loadDepmod w) = loadDepmod w := by
    cases hr : r.index with
    | none => rfl
    | some x => rw [hs.2.1, h2 x hr]; rfl
  have g3 : ∀ k v, orNow r.kaslr (detectKaslr t w k v) = detectKaslr t w k v := by
    intro k v
    cases hr : r.kaslr with
    | none => rfl
    | some x => rw [hs.2.2, h3 x hr]; rfl
  have e1 : sourcesAt t dirs w r src.debugSyms = sourcesAt t dirs w ⟨none, none, none⟩ src.debugSyms := by
    unfold sourcesAt
    simp only [g3]
    rfl
  have e2 : modulesAt t dirs w r src.debugSyms = modulesAt t dirs w ⟨none, none, none⟩ src.debugSyms := by
    unfold modulesAt
    rw [g1, g2]
    rfl
  unfold kernelAt
  rw [e1, e2]

/-- **C70** (unchanged system) As long as no module is loaded or unloaded, and the index and the KASLR
offset stay the same, a symbolizer that was used for long answers like one without any cache. -/
theorem C70_unchanged {cfg : Settings M (KernelCache M)} (hst : Standard cfg)
    {contents : M → Except Err (Except Err Bytes)} {mods : Except Err (List Mod)} {index : Except Err (Bytes × Bytes)}
    {offset : Nat} {s : State M (KernelCache M)}
    (hr : Reachable cfg (fun s w c => SameContents contents s w c ∧ SameSystem cfg.tools mods index offset w) s)
    (w : World M) (hw : w.disk.contents = contents) (hsys : SameSystem cfg.tools mods index offset w)
    (src : KernelSource) (hds : src.debugSyms = false) (ht : TextKallsyms w src) :
    (∀ input, ERel (List.Forall₂ (OutRel fun _ _ => True)) (s.symbolize cfg w (.kernel src) input).1
      (symbolize (envNow cfg w s) (.kernel src) input)) ∧
    ∀ input, ERel (OutRel fun _ _ => True) (s.symbolizeSingle cfg w (.kernel src) input).1
      (symbolizeSingle (envNow cfg w s) (.kernel src) input) := by
  obtain ⟨h1, h2, h3⟩ := C70_origin hst hr
  have hk : kernelAt cfg.tools cfg.debugDirs w (remembered s) =
      kernelAt cfg.tools cfg.debugDirs w ⟨none, none, none⟩ := by
    funext src
    refine kernelAt_remembered hsys _ ?_ ?_ ?_ src
    · intro x hx
      obtain ⟨_, w0, _, _, _, ho, _, h⟩ := h1 x hx
      rw [← ho.2.1, h]
    · intro x hx
      obtain ⟨_, w0, _, _, _, ho, _, h⟩ := h2 x hx
      rw [← ho.2.2.1, h]
    · intro x hx
      obtain ⟨_, w0, _, _, k, v, _, ho, _, h⟩ := h3 x hx
      rw [ho.2.2.2 k v] at h
      exact (Except.ok.inj h).symm
  have he : envWithKernel cfg w s = envNow cfg w s := by
    unfold envWithKernel envNow
    rw [hk]
  rw [← he]
  exact C70_kernel hst (reachable_mono (fun _ _ _ h => h.1) hr) w hw src hds ht

/-! ### What does not hold, and examples -/

/-- A symbolizer that reloads files or not. -/
def exKernel (autoReload : Bool) : Settings Nat (KernelCache Nat) where
  tools := exTools
  demangler := ⟨fun _ => none, fun _ => none⟩
  autoReload := autoReload
  codeInfo := true
  inlinedFns := true
  demangle := false
  debugDirs := Inspect.defaultDebugDirs
  apkDispatch := none
  processDispatch := none
  kernel := createKernelResolver exTools Inspect.defaultDebugDirs
  kernelNew := KernelCache.new

/-- `tinyElf`, but the function is called `_stext`. -/
def stextElf : Bytes := (Elf.tinyElf.take 121 ++ ascii "_stext" ++ Elf.tinyElf.drop 127).set 432 8

/-- Two ELF files, two kallsyms files, something that is not text, and an index of modules. -/
def exKernelContents : Nat → Except Err (Except Err Bytes)
  | 0 => .ok (.ok Elf.tinyElf)
  | 1 => .ok (.ok stextElf)
  | 2 => .ok (.ok (ascii "0000000000003000 T _stext\n"))
  | 3 => .ok (.ok (ascii "0000000000003000 T other\n"))
  | 4 => .ok (.ok [0xff])
  | 5 => .ok (.ok demoIndex)
  | _ => .error .notFound

/-- They are at these paths. -/
def exKernelStat (kallsyms : Nat) (p : Bytes) : Except Err Nat :=
  if p = ascii "/f" then .ok 0
  else if p = ascii "/stext" ∨ p = ascii "/lib/modules/6/k/ab.ko" then .ok 1
  else if p = ascii "/proc/kallsyms" then .ok kallsyms
  else if p = ascii "/lib/modules/6/modules.dep.bin" then .ok 5
  else .error .notFound

/-- A machine with one of the kallsyms files, and the module `ab` loaded or not. `/proc/kcore` is for root. -/
def exMachine (kallsyms : Nat) (loaded : Bool) : World Nat where
  toWorld := { Inspect.exWorld false with disk := ⟨exKernelStat kallsyms, exKernelContents⟩ }
  procMaps := fun _ => .error .notFound
  ownPid := 7
  memory := fun _ _ => []
  gsymAddr := 0
  sys := ⟨.ok (ascii "6"), .ok (if loaded then ascii "ab 8192 0 - Live 0x0000000000001000\n" else []), .error .permissionDenied,
    fun _ _ => .error .notFound, fun _ => .error .notFound⟩

/-- The names and modules of symbols. -/
def brief : Except Err (List Symbolized) → Except Err (List (Option (Bytes × Option Bytes))) :=
  Except.map (List.map fun | .sym x => some (x.name, x.module) | .unknown _ => none)

/-- Symbolize one address with a new symbolizer. -/
def byNew (autoReload : Bool) (w : World Nat) (src : KernelSource) (addr : Nat) :
    Except Err (List (Option (Bytes × Option Bytes))) :=
  brief ((State.new (exKernel autoReload)).symbolize (exKernel autoReload) w (.kernel src) (.absAddr [addr])).1

/-- The same with a symbolizer that was used for another request. -/
def byUsed (autoReload : Bool) (w0 : World Nat) (src0 : KernelSource) (w : World Nat) (src : KernelSource) (addr : Nat) :
    Except Err (List (Option (Bytes × Option Bytes))) :=
  brief (((State.new (exKernel autoReload)).symbolize (exKernel autoReload) w0 (.kernel src0) (.absAddr [addr])).2.symbolize
    (exKernel autoReload) w (.kernel src) (.absAddr [addr])).1

set_option maxRecDepth 20000 in
/-- **C70** (negative) a module that was loaded after the first request is not seen: its addresses are
reported to be in the core kernel. -/
theorem C70_modules_wrong :
    byNew true (exMachine 2 true) ⟨.none, .some (ascii "/f"), some 0x1000, false⟩ 0x2000 = .ok [some (ascii "_stext", some (ascii "/lib/modules/6/k/ab.ko"))] ∧
    byUsed true (exMachine 2 false) ⟨.none, .some (ascii "/f"), some 0x1000, false⟩ (exMachine 2 true) ⟨.none, .some (ascii "/f"), some 0x1000, false⟩ 0x2000 = .ok [some (ascii "f", some (ascii "/f"))] := by
  constructor <;> decide +kernel

set_option maxRecDepth 20000 in
/-- **C70** (negative) if the first request has a file that does not tell the KASLR offset, 0 is remembered
as offset, and is used for requests with files that tell it: addresses are not found in `vmlinux`. -/
theorem C70_kaslr_wrong :
    byNew true (exMachine 2 false) ⟨.default, .some (ascii "/stext"), none, false⟩ 0x3000 = .ok [some (ascii "_stext", some (ascii "/stext"))] ∧
    byUsed true (exMachine 2 false) ⟨.default, .some (ascii "/f"), none, false⟩ (exMachine 2 false) ⟨.default, .some (ascii "/stext"), none, false⟩ 0x3000 = .ok [some (ascii "_stext", none)] := by
  constructor <;> decide +kernel

set_option maxRecDepth 20000 in
/-- **C70** (negative) a kallsyms file that is not text is refused, but only once: then it is taken to be
empty. -/
theorem C70_retry_wrong :
    byNew true (exMachine 4 false) ⟨.some (ascii "/proc/kallsyms"), .none, none, false⟩ 0x3000 = .error .invalidData ∧
    byUsed true (exMachine 4 false) ⟨.some (ascii "/proc/kallsyms"), .none, none, false⟩ (exMachine 4 false) ⟨.some (ascii "/proc/kallsyms"), .none, none, false⟩ 0x3000 = .ok [none] := by
  constructor <;> decide +kernel

set_option maxRecDepth 20000 in
/-- **C70** (negative) kernel files are reloaded also if the symbolizer was told not to. -/
theorem C70_auto_reload_wrong :
    byNew false (exMachine 3 false) ⟨.default, .none, none, false⟩ 0x3000 = .ok [some (ascii "other", none)] ∧
    byUsed false (exMachine 2 false) ⟨.default, .none, none, false⟩ (exMachine 3 false) ⟨.default, .none, none, false⟩ 0x3000 = .ok [some (ascii "other", none)] := by
  constructor <;> decide +kernel

example (b : Bool) : Standard (exKernel b) := ⟨rfl, rfl⟩

set_option maxRecDepth 20000 in
/-- The kallsyms file of the machine is text. -/
theorem exMachine_text (loaded : Bool) (vmlinux : MaybeDefault Bytes) (kaslr : Option Nat) (debugSyms : Bool) :
    TextKallsyms (exMachine 2 loaded) ⟨.default, vmlinux, kaslr, debugSyms⟩ := by
  rintro path m data lines (h | ⟨_, rfl⟩) hm hd hl
  · cases h
  · have h0 : exKernelStat 2 (ascii "/proc/kallsyms") = .ok 2 := by decide +kernel
    have hm' : m = 2 := by
      have : exKernelStat 2 (ascii "/proc/kallsyms") = .ok m := hm
      rw [h0] at this
      exact (Except.ok.inj this).symm
    subst hm'
    have hd' := Except.ok.inj (Except.ok.inj hd)
    subst hd'
    rw [← (lines_iff _ _).mpr hl]
    decide +kernel

/-- Any calls on the machine, whatever modules are loaded, leave the contents of files as they are. -/
example (b loaded loaded' : Bool) (src : KernelSource) (input input' : Input (List Nat)) :
    Reachable (exKernel b) (SameContents exKernelContents)
      (after (exKernel b) (exMachine 3 loaded') (after (exKernel b) (exMachine 2 loaded) (State.new (exKernel b))
        (.symbolize (.kernel src) input)) (.symbolize (.kernel src) input')) :=
  .call _ _ _ (.call _ _ _ .new ⟨rfl, trivial⟩) ⟨rfl, trivial⟩

/-- The machine, if `/proc/kcore` can be read. -/
def exOpen : World Nat :=
  { exMachine 2 true with sys := { (exMachine 2 true).sys with kcore := .ok (kcoreFile 148) } }

/-- Then its KASLR offset is what is written there. -/
example : SameSystem exTools (loadModmap exTools exOpen) (loadDepmod exOpen) 0x1a exOpen := by
  refine ⟨rfl, rfl, fun k v => ?_⟩
  have h : findKcoreOffset (.ok (kcoreFile 148)) = .ok (some 0x1a) := by decide +kernel
  have hk : exOpen.sys.kcore = .ok (kcoreFile 148) := rfl
  unfold detectKaslr findKaslrOffset
  rw [hk, h]
  rfl

/-- What is known about the machine's files. -/
def exKernelKnown : Known Nat where
  contents := exKernelContents
  name := fun _ => ascii "/f"
  debug := fun _ => .ok ⟨⟨[], []⟩, none⟩
  member := fun _ _ _ _ => .error .notFound
  vdso := .error .notFound

/-- The machine, if its kernel release is not known. -/
def exNameless : World Nat :=
  { exMachine 2 false with sys := { (exMachine 2 false).sys with release := .error .notFound } }

set_option maxRecDepth 20000 in
theorem tiny_link : Elf.readDebugLink exTools.codec (.mem 4096 Elf.tinyElf) = .ok none := by
  show Elf.readDebugLink Elf.noCodec (.mem 4096 Elf.tinyElf) = _
  decide +kernel

/-- Symbolizing with debug information is an orderly call there. -/
theorem exKernel_fits : KernelFits (exKernel true) exKernelKnown exNameless (State.new (exKernel true))
    ⟨.default, .some (ascii "/f"), some 0, true⟩ := by
  intro actual represented hf m hm
  have ha : actual = ascii "/f" ∧ represented = ascii "/f" := by
    cases hf with
    | vmlinux path h => cases h; exact ⟨rfl, rfl⟩
    | release _ _ h => cases h
    | module _ _ _ _ h => cases h
    | temp _ _ _ _ _ _ h => cases h
  obtain ⟨rfl, rfl⟩ := ha
  have h0 : exKernelStat 2 (ascii "/f") = .ok 0 := by decide +kernel
  have hm' : m = 0 := by
    have : exKernelStat 2 (ascii "/f") = .ok m := hm
    rw [h0] at this
    exact (Except.ok.inj this).symm
  subst hm'
  refine ⟨rfl, fun _ => ?_⟩
  intro f pr hf hp
  have hf' := Except.ok.inj hf; subst hf'
  have hp' := Except.ok.inj hp; subst hp'
  have hb : fromParser exTools exNameless.files Inspect.defaultDebugDirs ⟨some (ascii "/f"), .mem 4096 Elf.tinyElf⟩ =
      andThen (findDwp ⟨some (ascii "/f"), .mem 4096 Elf.tinyElf⟩) fun dwp =>
        match exTools.load (.mem 4096 Elf.tinyElf) (dwp.map ElfParser.image) with
        | .error e => .done (.error e)
        | .ok units => .done (.ok ⟨units, none⟩) := by
    unfold fromParser derefDebugLink
    rw [tiny_link]
    rfl
  have h2 : exNameless.disk.stat (ascii "/f" ++ ascii ".dwp") = .error .notFound := by
    show exKernelStat 2 (ascii "/f" ++ ascii ".dwp") = _
    decide +kernel
  have l2 : exKernelKnown.elf.lookup exNameless.disk.stat (ascii "/f" ++ ascii ".dwp") = .error .notFound := by
    unfold Universe.lookup; rw [h2]; rfl
  show Prog.eval _ (fromParser exTools exNameless.files Inspect.defaultDebugDirs ⟨some (ascii "/f"), .mem 4096 Elf.tinyElf⟩) =
    _ ∧ ∀ q ∈ Prog.asked _ (fromParser exTools exNameless.files Inspect.defaultDebugDirs
      ⟨some (ascii "/f"), .mem 4096 Elf.tinyElf⟩), _
  rw [hb]
  have h3 : ∀ g : Option ElfParser → Prog Bytes ElfParser DebugData,
      (andThen (findDwp ⟨some (ascii "/f"), .mem 4096 Elf.tinyElf⟩) g).eval
        (exKernelKnown.elf.lookup exNameless.disk.stat) = (g none).eval (exKernelKnown.elf.lookup exNameless.disk.stat) ∧
      (andThen (findDwp ⟨some (ascii "/f"), .mem 4096 Elf.tinyElf⟩) g).asked
        (exKernelKnown.elf.lookup exNameless.disk.stat) =
          (ascii "/f" ++ ascii ".dwp") :: (g none).asked (exKernelKnown.elf.lookup exNameless.disk.stat) := by
    intro g
    constructor
    · simp only [andThen, Prog.eval, findDwp, l2]
    · simp only [andThen, Prog.asked, findDwp, l2]
  rw [(h3 _).1, (h3 _).2]
  refine ⟨rfl, ?_⟩
  intro q hq m' hm'
  rcases List.mem_cons.mp hq with rfl | hq
  · rw [h2] at hm'; cases hm'
  · cases hq

example (input : Input (List Nat)) : Reachable (exKernel true) (KernelOrderly (exKernel true) exKernelKnown)
    (after (exKernel true) exNameless (State.new (exKernel true))
      (.symbolize (.kernel ⟨.default, .some (ascii "/f"), some 0, true⟩) input)) :=
  .call _ _ _ .new ⟨rfl, exKernel_fits⟩

end Blazesym.Symbolize
