import Verif.Session.InvariantLemmas

/-! # The invariants hold after every history -/

set_option autoImplicit false

namespace Blazesym.Symbolize
open Blazesym.Util Blazesym.Maps Blazesym.Normalize Blazesym.Cache Blazesym.Spec Blazesym.Spec.Symbolize
open Blazesym.Dwarf hiding Resolver

variable {M K : Type} [DecidableEq M]

/-! ### Pinning and evicting -/

theorem setPinState_entries {P F T : Type} [DecidableEq P] (s : FileCache P M F T) (p : P) (b : Bool) :
    (s.setPinState p b).2.entries = s.entries ∧ (s.setPinState p b).2.autoReload = s.autoReload := by
  unfold FileCache.setPinState
  cases s.cache.get p with
  | none => exact ⟨rfl, rfl⟩
  | some pe =>
    simp only
    cases pe.current with
    | none => exact ⟨rfl, rfl⟩
    | some x => exact ⟨rfl, rfl⟩

theorem pin_faithful {P F T : Type} [DecidableEq P] {contents : M → Except Err F} {Val : M → F → T → Prop}
    {s : FileCache P M F T} (hs : Faithful contents Val s) (p : P) (b : Bool) :
    Faithful contents Val (s.setPinState p b).2 := by
  refine faithful_of_values hs (setPinState_wf hs.wf p b) ?_
  intro m e he
  rw [(setPinState_entries s p b).1] at he
  exact Or.inl ⟨e, he, rfl, rfl⟩

theorem evict_auto {P F T : Type} [DecidableEq P] {s : FileCache P M F T} (hs : WF s) (p : P) :
    (s.evict p).2.autoReload = s.autoReload := by
  cases hc : s.cache.get p with
  | none => rw [evict_absent p hc]
  | some pe =>
    obtain ⟨b, en, h1, _⟩ := evict_spec hs p pe hc
    rw [h1]

theorem evict_faithful {P F T : Type} [DecidableEq P] {contents : M → Except Err F} {Val : M → F → T → Prop}
    {s : FileCache P M F T} (hs : Faithful contents Val s) (p : P) : Faithful contents Val (s.evict p).2 := by
  refine faithful_of_values hs (evict_wf hs.wf p) ?_
  intro m e he
  left
  cases hc : s.cache.get p with
  | none => rw [evict_absent p hc] at he; exact ⟨e, he, rfl, rfl⟩
  | some pe =>
    obtain ⟨b, en, h1, _, h3, _⟩ := evict_spec hs.wf p pe hc
    rw [h1] at he
    simp only [h3] at he
    split at he
    · cases hg : s.entries.get m with
      | none => rw [hg] at he; cases he
      | some e0 =>
        rw [hg] at he
        simp only at he
        split at he
        · cases he; exact ⟨e0, rfl, rfl, rfl⟩
        · cases he
    · exact ⟨e, he, rfl, rfl⟩

theorem effective_unpin {P F T : Type} [DecidableEq P] (s : FileCache P M F T) (stat : P → Except Err M) (p : P) :
    effective (s.setPinState p false).2 stat p = if s.autoReload then stat p else effective s stat p := by
  cases hc : s.cache.get p with
  | none =>
    have h : (s.setPinState p false).2 = s := by unfold FileCache.setPinState; rw [hc]
    rw [h]
    unfold effective
    simp [hc]
  | some pe =>
    cases hp : pe.current with
    | none =>
      have h : (s.setPinState p false).2 = s := by unfold FileCache.setPinState; simp [hc, hp]
      rw [h]
      unfold effective
      simp [hc, hp]
    | some x =>
      obtain ⟨b, m⟩ := x
      have h : (s.setPinState p false).2 =
          { s with cache := s.cache.update p (fun pe => { pe with current := some (false, m) }) } := by
        unfold FileCache.setPinState; simp [hc, hp]
      rw [h]
      unfold effective
      simp only [InsertMap.get_update, if_true, hc, hp, Option.map_some]
      cases s.autoReload <;> simp

/-! ### Caching -/

/-- What `cacheElf` makes of the cache. -/
theorem cacheElf_state (s : ElfCache Bytes M (Except Err Bytes) ElfParser DebugData) (w : World M) (path : Bytes)
    (fill : ElfParser → Except Err _root_.Unit) :
    (s.cacheElf path (w.disk.stat path) (w.disk.opened path) (elfParse path) fill).2 =
      ((ElfCache.plainOn (s.setPinState path false).2 w.disk elfParse path path).2.setPinState path true).2 := by
  unfold ElfCache.cacheElf ElfCache.plainOn
  simp only
  split <;> rfl

theorem cacheElf_exact {k : Known M} {w : World M} (hc : w.disk.contents = k.contents)
    {s : ElfCache Bytes M (Except Err Bytes) ElfParser DebugData} (hs : Faithful k.contents (ElfCache.ElfVal k.elf) s)
    (path : Bytes) (fill : ElfParser → Except Err _root_.Unit)
    (hn : ∀ m, (if s.autoReload then w.disk.stat path else effective s w.disk.stat path) = .ok m → k.name m = path) :
    Faithful k.contents (ElfCache.ElfVal k.elf)
      (s.cacheElf path (w.disk.stat path) (w.disk.opened path) (elfParse path) fill).2 ∧
    (s.cacheElf path (w.disk.stat path) (w.disk.opened path) (elfParse path) fill).2.autoReload = s.autoReload := by
  have hdisk : w.disk = ⟨w.disk.stat, k.elf.contents⟩ := by
    show w.disk = ⟨w.disk.stat, k.contents⟩
    rw [← hc]
  rw [cacheElf_state]
  obtain ⟨_, h2, h3, _⟩ := ElfCache.plainOn_faithful (u := k.elf) (stat := w.disk.stat)
    (pin_faithful hs path false) path path (fun m hm => hn m (by rw [← effective_unpin]; exact hm))
  rw [← hdisk] at h2 h3
  exact ⟨pin_faithful h2 path true, (setPinState_entries _ _ _).2.trans
    (h3.autoReload.trans (setPinState_entries _ _ _).2)⟩

theorem cacheElf_loose {w : World M} {s : ElfCache Bytes M (Except Err Bytes) ElfParser DebugData}
    (hs : LooseElf w.disk.contents s) (path : Bytes) (fill : ElfParser → Except Err _root_.Unit) :
    LooseElf w.disk.contents
      (s.cacheElf path (w.disk.stat path) (w.disk.opened path) (elfParse path) fill).2 ∧
    (s.cacheElf path (w.disk.stat path) (w.disk.opened path) (elfParse path) fill).2.autoReload = s.autoReload := by
  rw [cacheElf_state]
  obtain ⟨_, h2, h3⟩ := ElfCache.plainOn_named (pin_faithful hs path false) path path (fun _ _ => trivial)
  exact ⟨pin_faithful h2 path true, (setPinState_entries _ _ _).2.trans
    (h3.autoReload.trans (setPinState_entries _ _ _).2)⟩

/-! ### Registering -/

theorem register_faithful {w : World M} {Val : M → Except Err Bytes → ElfData ElfParser DebugData → Prop}
    {s : ElfCache Bytes M (Except Err Bytes) ElfParser DebugData} (hs : Faithful w.disk.contents Val s)
    (path : Bytes) (resolver : ElfResolver)
    (hv : ∀ m f, effective s w.disk.stat path = .ok m → w.disk.contents m = .ok f → Val m f (elfData resolver)) :
    Faithful w.disk.contents Val (registerOn w path resolver s).2 ∧
    (registerOn w path resolver s).2.autoReload = s.autoReload ∧ Frame w.disk.stat s (registerOn w path resolver s).2 := by
  obtain ⟨h1, h2, h3⟩ := entry_faithful hs path
  unfold registerOn
  cases he : effective s w.disk.stat path with
  | error e => rw [h1 e he]; exact ⟨hs, rfl, Frame.refl _ _⟩
  | ok m =>
    cases hcm : w.disk.contents m with
    | error e => rw [h2 m e he hcm]; exact ⟨hs, rfl, Frame.refl _ _⟩
    | ok f =>
      obtain ⟨e, s', hent, hfile, hg, hs', hfr, _⟩ := h3 m f he hcm
      rw [hent]
      simp only
      cases e.value with
      | some x => exact ⟨hs', hfr.autoReload, hfr⟩
      | none =>
        refine ⟨ElfCache.setValue_faithful hs' m _ ?_, hfr.autoReload, hfr.trans (ElfCache.setValue_frame _ _ _ _)⟩
        intro e' he'
        rw [hg] at he'
        cases he'
        rw [hfile]
        exact hv m f he hcm

/-! ### All calls -/

/-- Whether files are reloaded is a setting. -/
structure Autos (cfg : Settings M K) (s : State M K) : Prop where
  apk : s.apk.autoReload = cfg.autoReload
  breakpad : s.breakpad.autoReload = cfg.autoReload
  elf : s.elf.autoReload = cfg.autoReload
  gsym : s.gsym.autoReload = cfg.autoReload
  perfMap : s.perfMap.autoReload = cfg.autoReload

theorem Autos.frame {cfg : Settings M K} {w : World M} {s0 s : State M K} (h : Autos cfg s0) (hf : StateFrame w s0 s) :
    Autos cfg s :=
  ⟨hf.apk.autoReload.trans h.apk, hf.breakpad.autoReload.trans h.breakpad, hf.elf.autoReload.trans h.elf,
    hf.gsym.autoReload.trans h.gsym, hf.perfMap.autoReload.trans h.perfMap⟩

theorem autos_new (cfg : Settings M K) : Autos cfg (State.new cfg) := ⟨rfl, rfl, rfl, rfl, rfl⟩

theorem dispatched_new (cfg : Settings M K) : Dispatched cfg InsertMap.empty := by
  intro d _ x h
  simp [InsertMap.empty] at h

theorem dispatched_retain {cfg : Settings M K} {cache : InsertMap PathName (Option Resolver)}
    (h : Dispatched cfg cache) (p : PathName → Option Resolver → Bool) : Dispatched cfg (cache.retain p) :=
  fun d hd x hx => h d hd x (List.mem_of_mem_filter hx)

theorem exact_new (cfg : Settings M K) (k : Known M) : Exact cfg k (State.new cfg) :=
  ⟨faithful_new _ _ _, faithful_new _ _ _, faithful_new _ _ _, faithful_new _ _ _, faithful_new _ _ _,
    dispatched_new cfg, by intro p h; cases h⟩

theorem loose_new (cfg : Settings M K) (contents : M → Except Err (Except Err Bytes)) :
    Loose cfg contents (State.new cfg) :=
  ⟨faithful_new _ _ _, faithful_new _ _ _, faithful_new _ _ _, faithful_new _ _ _, faithful_new _ _ _,
    dispatched_new cfg⟩

/-- A kernel request with nothing but what it needs. -/
def kernelHost (cfg : Settings M K) (w : World M) : Host (State M K) :=
  { host cfg w with
    apk := fun _ _ _ _ => .lift (.error .panic)
    breakpad := fun _ => .lift (.error .panic)
    elf := fun _ _ _ => .lift (.error .panic)
    gsymFile := fun _ => .lift (.error .panic)
    perfMap := fun _ => .lift (.error .panic)
    vdso := fun _ _ _ => .lift (.error .panic)
    maps := fun _ => .lift (.error .panic)
    dispatch := fun _ _ _ => .lift (.error .panic) }

theorem kernelHost_eq (cfg : Settings M K) (w : World M) (src : KernelSource) (input : Input (List Nat))
    (fold : Err → Except Err Symbolized) :
    (host cfg w).symbolizeImpl (.kernel src) input fold = (kernelHost cfg w).symbolizeImpl (.kernel src) input fold :=
  rfl

/-- A property of everything but what is known about the kernel. -/
theorem kernelHost_keeps {cfg : Settings M K} {w : World M} {I : State M K → Prop}
    (hi : ∀ s kernel, I s → I { s with kernel }) : HostKeeps I (kernelHost cfg w) where
  apk := fun _ _ _ _ => Keeps.lift _
  breakpad := fun _ => Keeps.lift _
  elf := fun _ _ _ => Keeps.lift _
  kernel := fun _ => Keeps.bind (fun s hs => hi s _ hs) fun _ => Keeps.lift _
  kernelFn := by
    intro src s f hf addr opts
    obtain ⟨g, rfl⟩ := kernel_fn hf
    exact fun s' hs' => hi s' _ hs'
  gsymFile := fun _ => Keeps.lift _
  perfMap := fun _ => Keeps.lift _
  vdso := fun _ _ _ => Keeps.lift _
  maps := fun _ => Keeps.lift _
  dispatch := fun _ _ _ => Keeps.lift _

theorem exact_kernel {cfg : Settings M K} {k : Known M} {w : World M} {s0 : State M K} (s : State M K) (kernel : K)
    (h : Exact cfg k s ∧ StateFrame w s0 s) :
    Exact cfg k { s with kernel } ∧ StateFrame w s0 { s with kernel } :=
  ⟨{ h.1 with process := h.1.process }, { h.2 with vmas := h.2.vmas }⟩

/-- Requests keep the invariant. -/
theorem request_exact {cfg : Settings M K} (hb : DispatchByName cfg) {k : Known M} {w : World M}
    (hc : w.disk.contents = k.contents) (hlen : ∀ m data, k.contents m = .ok (.ok data) → data.length < 2 ^ 63)
    {s : State M K} (hs : Exact cfg k s) (src : Source)
    (hd : ∀ l, Uses (mapsOf w s.vmas) src l → Fits cfg k w (versions s w) l) :
    (∀ input, Exact cfg k (s.symbolize cfg w src input).2 ∧ StateFrame w s (s.symbolize cfg w src input).2) ∧
    ∀ input, Exact cfg k (s.symbolizeSingle cfg w src input).2 ∧
      StateFrame w s (s.symbolizeSingle cfg w src input).2 := by
  by_cases hk : ∃ ks, src = .kernel ks
  · obtain ⟨ks, rfl⟩ := hk
    have hh := kernelHost_keeps (cfg := cfg) (w := w) (I := fun s' => Exact cfg k s' ∧ StateFrame w s s')
      (fun s' kernel h => exact_kernel s' kernel h)
    exact ⟨fun input => symbolize_keeps hh (.kernel ks) input s ⟨hs, StateFrame.refl w s⟩,
      fun input => symbolizeSingle_keeps hh (.kernel ks) input s ⟨hs, StateFrame.refl w s⟩⟩
  · have hh := host_exact hb hc hlen s
    have hd' : ∀ l, Uses (mapsOf w s.vmas) src l → Fits cfg k w (versions s w) l ∧ ∀ ks, l ≠ .kernel ks := by
      intro l hl
      refine ⟨hd l hl, ?_⟩
      rintro ks rfl
      cases hl with
      | kernel => exact hk ⟨ks, rfl⟩
      | process _ items e _ h1 h2 h3 => cases h3
    exact ⟨fun input => (symbolize_sim hh src input hd' s ⟨hs, StateFrame.refl w s⟩).2,
      fun input => (symbolizeSingle_sim hh src input hd' s ⟨hs, StateFrame.refl w s⟩).2⟩

/-- Orderly calls keep the invariant. -/
theorem exact_after {cfg : Settings M K} (hb : DispatchByName cfg) {k : Known M}
    (hlen : ∀ m data, k.contents m = .ok (.ok data) → data.length < 2 ^ 63)
    {w : World M} {s : State M K} (hs : Exact cfg k s) (ha : Autos cfg s) (c : Call) (ho : Orderly cfg k s w c) :
    Exact cfg k (after cfg w s c) ∧ Autos cfg (after cfg w s c) := by
  obtain ⟨hc, ho⟩ := ho
  cases c with
  | symbolize src input =>
    obtain ⟨h1, h2⟩ := (request_exact hb hc hlen hs src ho).1 input
    exact ⟨h1, ha.frame h2⟩
  | symbolizeSingle src input =>
    obtain ⟨h1, h2⟩ := (request_exact hb hc hlen hs src ho).2 input
    exact ⟨h1, ha.frame h2⟩
  | cache fill req =>
    cases req with
    | elf path =>
      have hn : ∀ m, (if s.elf.autoReload then w.disk.stat path else effective s.elf w.disk.stat path) = .ok m →
          k.name m = path := by
        intro m hm
        rw [ha.elf] at hm
        exact ho m hm
      obtain ⟨h1, h2⟩ := cacheElf_exact hc hs.elf path fill hn
      exact ⟨{ hs with elf := h1 }, { ha with elf := h2.trans ha.elf }⟩
    | process pid cacheVmas => exact ⟨{ hs with process := hs.process }, { ha with elf := ha.elf }⟩
  | evict req =>
    cases req with
    | elf path =>
      simp only [after, State.evict]
      have h1 := evict_faithful hs.elf path
      have h2 := evict_auto hs.elf.wf path
      cases hr : s.elf.evict path with
      | mk r elf =>
        rw [hr] at h1 h2
        cases r with
        | error e => exact ⟨{ hs with elf := h1 }, { ha with elf := h2.trans ha.elf }⟩
        | ok b => exact ⟨{ hs with elf := h1, process := dispatched_retain hs.process _ },
            { ha with elf := h2.trans ha.elf }⟩
    | process pid =>
      simp only [after, State.evict]
      have h1 := evict_faithful hs.perfMap (PerfMap.path (resolvePid w pid))
      have h2 := evict_auto hs.perfMap.wf (PerfMap.path (resolvePid w pid))
      cases hr : s.perfMap.evict (PerfMap.path (resolvePid w pid)) with
      | mk r perfMap =>
        rw [hr] at h1 h2
        cases r <;> exact ⟨{ hs with perfMap := h1 }, { ha with perfMap := h2.trans ha.perfMap }⟩
  | register path resolver =>
    have hs' := hs.elf
    rw [← hc] at hs'
    obtain ⟨h1, h2, _⟩ := register_faithful hs' path resolver (by
      intro m f hm hf
      obtain ⟨g1, g2⟩ := ho m f hm (by rw [← hc]; exact hf)
      cases resolver with
      | elf p => exact ⟨Or.inl rfl, fun q hq => by cases hq; exact g1, fun q r hq => by cases hq⟩
      | dwarf p d =>
        exact ⟨Or.inr rfl, fun q hq => (by cases hq), fun q r hq => by cases hq; exact ⟨g1, g2 _ _ rfl⟩⟩)
    rw [hc] at h1
    exact ⟨{ hs with elf := h1 }, { ha with elf := h2.trans ha.elf }⟩

theorem exact_reachable {cfg : Settings M K} (hb : DispatchByName cfg) {k : Known M}
    (hlen : ∀ m data, k.contents m = .ok (.ok data) → data.length < 2 ^ 63)
    {s : State M K} (hr : Reachable cfg (Orderly cfg k) s) : Exact cfg k s ∧ Autos cfg s := by
  induction hr with
  | new => exact ⟨exact_new cfg k, autos_new cfg⟩
  | call s w c _ ho ih => exact exact_after hb hlen ih.1 ih.2 c ho

/-- Calls that leave versions as they are keep the loose invariant. -/
theorem loose_after {cfg : Settings M K} {contents : M → Except Err (Except Err Bytes)}
    {w : World M} {s : State M K} (hs : Loose cfg contents s) (ha : Autos cfg s) (c : Call)
    (ho : SameContents contents s w c) :
    Loose cfg contents (after cfg w s c) ∧ Autos cfg (after cfg w s c) := by
  obtain ⟨hc, ho⟩ := ho
  subst hc
  cases c with
  | symbolize src input =>
    obtain ⟨h1, h2⟩ := symbolize_keeps (host_loose (cfg := cfg) s) src input s ⟨hs, StateFrame.refl w s⟩
    exact ⟨h1, ha.frame h2⟩
  | symbolizeSingle src input =>
    obtain ⟨h1, h2⟩ := symbolizeSingle_keeps (host_loose (cfg := cfg) s) src input s ⟨hs, StateFrame.refl w s⟩
    exact ⟨h1, ha.frame h2⟩
  | cache fill req =>
    cases req with
    | elf path =>
      obtain ⟨h1, h2⟩ := cacheElf_loose hs.elf path fill
      exact ⟨{ hs with elf := h1 }, { ha with elf := h2.trans ha.elf }⟩
    | process pid cacheVmas => exact ⟨{ hs with process := hs.process }, { ha with elf := ha.elf }⟩
  | evict req =>
    cases req with
    | elf path =>
      simp only [after, State.evict]
      have h1 := evict_faithful hs.elf path
      have h2 := evict_auto hs.elf.wf path
      cases hr : s.elf.evict path with
      | mk r elf =>
        rw [hr] at h1 h2
        cases r with
        | error e => exact ⟨{ hs with elf := h1 }, { ha with elf := h2.trans ha.elf }⟩
        | ok b => exact ⟨{ hs with elf := h1, process := dispatched_retain hs.process _ },
            { ha with elf := h2.trans ha.elf }⟩
    | process pid =>
      simp only [after, State.evict]
      have h1 := evict_faithful hs.perfMap (PerfMap.path (resolvePid w pid))
      have h2 := evict_auto hs.perfMap.wf (PerfMap.path (resolvePid w pid))
      cases hr : s.perfMap.evict (PerfMap.path (resolvePid w pid)) with
      | mk r perfMap =>
        rw [hr] at h1 h2
        cases r <;> exact ⟨{ hs with perfMap := h1 }, { ha with perfMap := h2.trans ha.perfMap }⟩
  | register path resolver =>
    obtain ⟨h1, h2, _⟩ := register_faithful hs.elf path resolver (by
      intro m f hm hf
      obtain ⟨name, g1⟩ := ho m f hm hf
      cases resolver with
      | elf p => exact ⟨Or.inl rfl, fun q hq => by cases hq; exact ⟨name, trivial, g1⟩, fun q r hq => by cases hq⟩
      | dwarf p d =>
        exact ⟨Or.inr rfl, fun q hq => (by cases hq), fun q r hq => by cases hq; exact ⟨name, trivial, g1⟩⟩)
    exact ⟨{ hs with elf := h1 }, { ha with elf := h2.trans ha.elf }⟩

theorem loose_reachable {cfg : Settings M K} {contents : M → Except Err (Except Err Bytes)}
    {s : State M K} (hr : Reachable cfg (SameContents contents) s) : Loose cfg contents s ∧ Autos cfg s := by
  induction hr with
  | new => exact ⟨loose_new cfg contents, autos_new cfg⟩
  | call s w c _ ho ih => exact loose_after ih.1 ih.2 c ho

end Blazesym.Symbolize
