import Verif.Session.StateLemmas

/-! # Invariants of the symbolizer -/

set_option autoImplicit false

namespace Blazesym.Symbolize
open Blazesym.Util Blazesym.Maps Blazesym.Normalize Blazesym.Cache Blazesym.Spec Blazesym.Spec.Symbolize
open Blazesym.Dwarf hiding Resolver

variable {M K : Type} [DecidableEq M]

/-- Everything in the process cache came from the dispatcher. -/
def Dispatched (cfg : Settings M K) (cache : InsertMap PathName (Option Resolver)) : Prop :=
  ∀ d, cfg.processDispatch = some d → ∀ x ∈ cache.pairs, ∃ a b, d a b x.1 = .ok x.2

theorem find_mem {V : Type} {l : List (PathName × V)} {name : PathName} {v : V}
    (h : InsertMap.find l name = some v) : (name, v) ∈ l := by
  induction l with
  | nil => cases h
  | cons x t ih =>
    obtain ⟨n, u⟩ := x
    simp only [InsertMap.find] at h
    split at h
    · rename_i hn
      cases h
      subst hn
      exact List.mem_cons_self
    · exact List.mem_cons_of_mem _ (ih h)

/-- What is known about a symbolizer if files do not change and ELF files are used under any names. -/
structure Loose (cfg : Settings M K) (contents : M → Except Err (Except Err Bytes)) (s : State M K) : Prop where
  apk : Faithful contents (fun _ _ _ => True) s.apk
  breakpad : Faithful contents (fun _ f t => Inspect.breakpadParse f = .ok t) s.breakpad
  elf : LooseElf contents s.elf
  gsym : Faithful contents (fun _ f t => gsymParse f = .ok t) s.gsym
  perfMap : Faithful contents (fun _ f t => perfMapParse f = .ok t) s.perfMap
  process : Dispatched cfg s.process

/-- What is known about a symbolizer if what it stores is what is known. -/
structure Exact (cfg : Settings M K) (k : Known M) (s : State M K) : Prop where
  apk : Faithful k.contents (ApkVal k) s.apk
  breakpad : Faithful k.contents (fun _ f t => Inspect.breakpadParse f = .ok t) s.breakpad
  elf : Faithful k.contents (ElfCache.ElfVal k.elf) s.elf
  gsym : Faithful k.contents (fun _ f t => gsymParse f = .ok t) s.gsym
  perfMap : Faithful k.contents (fun _ f t => perfMapParse f = .ok t) s.perfMap
  process : Dispatched cfg s.process
  vdso : ∀ p, s.vdso = some p → k.vdso = .ok p

/-- What a request does not change. -/
structure StateFrame (w : World M) (s0 s : State M K) : Prop where
  apk : Frame w.disk.stat s0.apk s.apk
  breakpad : Frame w.disk.stat s0.breakpad s.breakpad
  elf : Frame w.disk.stat s0.elf s.elf
  gsym : Frame w.disk.stat s0.gsym s.gsym
  perfMap : Frame w.disk.stat s0.perfMap s.perfMap
  vmas : s.vmas = s0.vmas

theorem StateFrame.refl (w : World M) (s : State M K) : StateFrame w s s :=
  ⟨Frame.refl _ _, Frame.refl _ _, Frame.refl _ _, Frame.refl _ _, Frame.refl _ _, rfl⟩

theorem StateFrame.versions {w : World M} {s0 s : State M K} (h : StateFrame w s0 s) :
    versions s w = versions s0 w := by
  simp only [Spec.Symbolize.versions, funext h.apk.effective, funext h.breakpad.effective,
    funext h.elf.effective, funext h.gsym.effective, funext h.perfMap.effective]

theorem dispatched_on {cfg : Settings M K} {cache : InsertMap PathName (Option Resolver)} (hd : Dispatched cfg cache)
    (start stop : Nat) (name : PathName) :
    Dispatched cfg (dispatchOn cfg start stop name cache).2 ∧
    (cfg.processDispatch = none → (dispatchOn cfg start stop name cache).1 = .ok none) ∧
    ∀ d, cfg.processDispatch = some d → ∃ a b, d a b name = (dispatchOn cfg start stop name cache).1 := by
  unfold dispatchOn
  cases hp : cfg.processDispatch with
  | none => exact ⟨hd, fun _ => rfl, by simp⟩
  | some d =>
    simp only [InsertMap.getOrTryInsert]
    have h0 := hd d hp
    cases hg : cache.get name with
    | some r =>
      have hg' : InsertMap.find cache.pairs name = some r := hg
      simp only [hg']
      refine ⟨hd, by simp, ?_⟩
      intro d' hd'
      cases hd'
      exact h0 (name, r) (find_mem hg')
    | none =>
      have hg' : InsertMap.find cache.pairs name = none := hg
      simp only [hg']
      cases hr : d start stop name with
      | error e => exact ⟨hd, by simp, fun d' hd' => by cases hd'; exact ⟨_, _, hr⟩⟩
      | ok r =>
        refine ⟨?_, by simp, fun d' hd' => by cases hd'; exact ⟨_, _, hr⟩⟩
        intro d' hd' x hx
        rw [hp] at hd'
        cases hd'
        rcases List.mem_cons.mp hx with rfl | hx
        · exact ⟨_, _, hr⟩
        · exact h0 x hx

theorem fn_refl (f : SymFn) : FnRel Eq f f :=
  fun _ _ => erel_refl (fun x => by cases x with
    | error r => exact .error r
    | ok a => exact .ok a a rfl rfl) _

theorem res_refl (r : Resolver) : ResRel Eq r r := ⟨fn_refl _, rfl⟩

theorem opt_refl {α : Type} {R : α → α → Prop} (h : ∀ x, R x x) (o : Option α) : OptRel R o o := by
  cases o with
  | none => trivial
  | some x => exact h x

/-! ### Requests -/

/-- Every lookup that fits answers as without caches. -/
theorem host_exact {cfg : Settings M K} (hb : DispatchByName cfg) {k : Known M} {w : World M}
    (hc : w.disk.contents = k.contents) (hlen : ∀ m data, k.contents m = .ok (.ok data) → data.length < 2 ^ 63)
    (s0 : State M K) :
    HostSim (fun s => Exact cfg k s ∧ StateFrame w s0 s) Eq
      (fun l => Fits cfg k w (versions s0 w) l ∧ ∀ src, l ≠ .kernel src) (host cfg w)
      (envAt cfg w (versions s0 w) (mapsOf w s0.vmas)) where
  opts := rfl
  demangle := rfl
  demangler := rfl
  apk := by
    intro actual represented off debugSyms hd s ⟨hs, hf⟩
    obtain ⟨h1, h2, h3⟩ := apkOn_exact (cfg := cfg) hc hlen actual represented off debugSyms hs.apk (versions s0 w)
      (hf.apk.effective actual).symm hd.1 (mapsOf w s0.vmas)
    refine ⟨?_, ⟨{ hs with apk := h2 }, { hf with apk := hf.apk.trans h3 }⟩⟩
    rw [← h1]
    exact erel_refl (opt_refl fun x => ⟨fn_refl _, rfl⟩) _
  breakpad := by
    intro path _ s ⟨hs, hf⟩
    have hs' := hs.breakpad
    rw [← hc] at hs'
    obtain ⟨h1, h2, h3⟩ := breakpadOn_faithful (cfg := cfg) path hs' (versions s0 w)
      (hf.breakpad.effective path).symm (mapsOf w s0.vmas)
    rw [hc] at h2
    refine ⟨?_, ⟨{ hs with breakpad := h2 }, { hf with breakpad := hf.breakpad.trans h3 }⟩⟩
    rw [← h1]
    exact erel_refl fn_refl _
  elf := by
    intro actual represented debugSyms hd s ⟨hs, hf⟩
    obtain ⟨h1, h2, h3⟩ := elfOn_exact (cfg := cfg) hc actual represented debugSyms hs.elf (versions s0 w)
      (funext fun q => (hf.elf.effective q).symm) hd.1 (mapsOf w s0.vmas)
    refine ⟨?_, ⟨{ hs with elf := h2 }, { hf with elf := hf.elf.trans h3 }⟩⟩
    rw [← h1]
    exact erel_refl res_refl _
  kernel := fun src hd => (hd.2 src rfl).elim
  gsymData := fun _ => erel_refl fn_refl _
  gsymFile := by
    intro path _ s ⟨hs, hf⟩
    have hs' := hs.gsym
    rw [← hc] at hs'
    obtain ⟨h1, h2, h3⟩ := gsymOn_faithful (cfg := cfg) path hs' (versions s0 w)
      (hf.gsym.effective path).symm (mapsOf w s0.vmas)
    rw [hc] at h2
    refine ⟨?_, ⟨{ hs with gsym := h2 }, { hf with gsym := hf.gsym.trans h3 }⟩⟩
    rw [← h1]
    exact erel_refl fn_refl _
  perfMap := by
    intro pid _ s ⟨hs, hf⟩
    have hs' := hs.perfMap
    rw [← hc] at hs'
    obtain ⟨h1, h2, h3⟩ := perfMapOn_faithful (cfg := cfg) pid hs' (versions s0 w)
      (funext fun q => (hf.perfMap.effective q).symm) (mapsOf w s0.vmas)
    rw [hc] at h2
    refine ⟨?_, ⟨{ hs with perfMap := h2 }, { hf with perfMap := hf.perfMap.trans h3 }⟩⟩
    rw [← h1]
    exact erel_refl (opt_refl fn_refl) _
  vdso := by
    intro pid start stop hd s ⟨hs, hf⟩
    have hd := hd.1
    simp only [Fits] at hd
    simp only [host, on, Act.zoom, vdsoOn, envAt, hd]
    cases hv : s.vdso with
    | some p =>
      rw [hs.vdso p hv]
      exact ⟨erel_refl res_refl _, ⟨{ hs with vdso := by intro q hq; simp only at hq; cases hq; exact hs.vdso p hv },
        { hf with vmas := hf.vmas }⟩⟩
    | none =>
      simp only
      cases hk : k.vdso with
      | error e => exact ⟨.error e, ⟨{ hs with vdso := by intro q hq; cases hq }, { hf with vmas := hf.vmas }⟩⟩
      | ok p => exact ⟨erel_refl res_refl _, ⟨{ hs with vdso := by intro q hq; simp only at hq; cases hq; exact hk },
        { hf with vmas := hf.vmas }⟩⟩
  maps := by
    intro pid s ⟨hs, hf⟩
    refine ⟨?_, ⟨hs, hf⟩⟩
    simp only [host, envAt, hf.vmas]
    exact erel_refl (fun _ => rfl) _
  byName := by
    intro d hd
    refine ⟨hb d hd, ?_⟩
    intro name r h
    cases h
  dispatch := by
    intro start stop name cache _ ha s ⟨hs, hf⟩
    obtain ⟨h1, h2, h3⟩ := dispatched_on hs.process start stop name
    refine ⟨?_, ⟨{ hs with process := h1 }, { hf with vmas := hf.vmas }⟩⟩
    show ERel _ (dispatchOn cfg start stop name s.process).1 _
    unfold dispatchResolver
    have hd' : (envAt cfg w (versions s0 w) (mapsOf w s0.vmas)).dispatch = cfg.processDispatch := rfl
    cases hp : cfg.processDispatch with
    | none =>
      simp only [hd', hp]
      rw [h2 hp]
      exact .ok _ _ trivial
    | some d =>
      obtain ⟨a, b, hab⟩ := h3 d hp
      simp only [hd', hp]
      rw [← hab]
      cases hl : cache.lookup name with
      | some r =>
        simp only
        have := ha d (hd'.trans hp) name r hl
        rw [hb d hp a b 0 0, this]
        exact .ok _ _ (opt_refl res_refl _)
      | none =>
        simp only
        rw [hb d hp start stop a b]
        cases d a b name with
        | error e => exact .error e
        | ok r => exact .ok _ _ (opt_refl res_refl _)

theorem kernel_fn {cfg : Settings M K} {w : World M} {src : KernelSource} {s : State M K} {f : ActFn (State M K)}
    (hf : ((host cfg w).kernel src s).1 = .ok f) :
    ∃ g : ActFn K, f = fun addr opts => on State.kernel (fun s kernel => { s with kernel }) (g addr opts) := by
  have hz : (host cfg w).kernel src s =
      match (cfg.kernel w src s.kernel).1 with
      | .error e => (.error e, { s with kernel := (cfg.kernel w src s.kernel).2 })
      | .ok g => (.ok fun addr opts => on State.kernel (fun s kernel => { s with kernel }) (g addr opts),
          { s with kernel := (cfg.kernel w src s.kernel).2 }) := by
    show Act.bind _ _ s = _
    unfold Act.bind on Act.zoom
    simp only
    cases (cfg.kernel w src s.kernel).1 <;> rfl
  rw [hz] at hf
  cases hr : (cfg.kernel w src s.kernel).1 with
  | error e => rw [hr] at hf; cases hf
  | ok g => rw [hr] at hf; cases hf; exact ⟨g, rfl⟩

/-- Nothing is looked up that changes more than the caches. -/
theorem host_loose {cfg : Settings M K} {w : World M} (s0 : State M K) :
    HostKeeps (fun s => Loose cfg w.disk.contents s ∧ StateFrame w s0 s) (host cfg w) where
  apk := by
    intro actual represented off debugSyms s ⟨hs, hf⟩
    obtain ⟨h2, h3⟩ := apkOn_loose (cfg := cfg) actual represented off debugSyms hs.apk
    exact ⟨{ hs with apk := h2 }, { hf with apk := hf.apk.trans h3 }⟩
  breakpad := by
    intro path s ⟨hs, hf⟩
    obtain ⟨_, h2, h3⟩ := breakpadOn_faithful (cfg := cfg) path hs.breakpad (versions s w) rfl (mapsOf w s0.vmas)
    exact ⟨{ hs with breakpad := h2 }, { hf with breakpad := hf.breakpad.trans h3 }⟩
  elf := by
    intro actual represented debugSyms s ⟨hs, hf⟩
    obtain ⟨h2, h3, _⟩ := elfOn_loose (cfg := cfg) actual represented debugSyms hs.elf
    exact ⟨{ hs with elf := h2 }, { hf with elf := hf.elf.trans h3 }⟩
  kernel := by
    intro src
    refine Keeps.bind (fun s hs => ?_) fun f => Keeps.lift _
    exact ⟨{ hs.1 with process := hs.1.process }, { hs.2 with vmas := hs.2.vmas }⟩
  kernelFn := by
    intro src s f hf addr opts
    obtain ⟨g, rfl⟩ := kernel_fn hf
    intro s' hs'
    exact ⟨{ hs'.1 with process := hs'.1.process }, { hs'.2 with vmas := hs'.2.vmas }⟩
  gsymFile := by
    intro path s ⟨hs, hf⟩
    obtain ⟨_, h2, h3⟩ := gsymOn_faithful (cfg := cfg) path hs.gsym (versions s w) rfl (mapsOf w s0.vmas)
    exact ⟨{ hs with gsym := h2 }, { hf with gsym := hf.gsym.trans h3 }⟩
  perfMap := by
    intro pid s ⟨hs, hf⟩
    obtain ⟨_, h2, h3⟩ := perfMapOn_faithful (cfg := cfg) pid hs.perfMap (versions s w) rfl (mapsOf w s0.vmas)
    exact ⟨{ hs with perfMap := h2 }, { hf with perfMap := hf.perfMap.trans h3 }⟩
  vdso := by
    intro pid start stop s ⟨hs, hf⟩
    exact ⟨{ hs with process := hs.process }, { hf with vmas := hf.vmas }⟩
  maps := fun _ _ hs => hs
  dispatch := by
    intro start stop name s ⟨hs, hf⟩
    obtain ⟨h1, _, _⟩ := dispatched_on hs.process start stop name
    exact ⟨{ hs with process := h1 }, { hf with vmas := hf.vmas }⟩

end Blazesym.Symbolize
