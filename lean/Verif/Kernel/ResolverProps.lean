import Verif.Kernel.Resolver
import Verif.Kernel.ModMapProps
import Verif.Kernel.DepmodProps

/-! # C34: dispatch of kernel addresses -/

set_option autoImplicit false

namespace Blazesym.Spec.Kernel
open Blazesym.Kernel

/-- The modules do not contain one another's start, and their ends are addresses. -/
def Disjoint (mods : List Mod) : Prop :=
  (∀ m ∈ mods, ∀ m' ∈ mods, m ≠ m' → ¬ InMod m m'.addr) ∧ ∀ m ∈ mods, m.addr + m.size < 2 ^ 64

/-- A source is used if it can be loaded, and left out otherwise. A panic is not an answer. -/
def UsedIfLoaded {A : Type} (loaded : Except Err A) (used : Except Err (Option A)) : Prop :=
  (∀ x, loaded = .ok x → used = .ok (some x)) ∧ (∀ e, loaded = .error e → e ≠ .panic → used = .ok none) ∧
  (loaded = .error .panic → used = .error .panic)

export Blazesym.Spec (HasExtension)

end Blazesym.Spec.Kernel

namespace Blazesym.Kernel
open Blazesym.Util Blazesym.Symbolize Blazesym.Spec.Kernel Blazesym.Kernel.Depmod

/-- **C34** (kallsyms only): without a kernel image, the address is looked up in kallsyms as is,
and nothing else is consulted. -/
theorem C34_kallsyms_only (r : KernelResolver) (env : KernelEnv) (k : SymFn) (addr : Nat) (opts : FindSymOpts)
    (hv : r.vmlinux = none) (hk : r.ksym = some k) : r.findSym env addr opts = k addr opts := by
  unfold KernelResolver.findSym
  rw [hv, hk]

theorem findSym_module (r : KernelResolver) (env : KernelEnv) (v : SymFn) (mods : List Mod) (m : Mod) (addr : Nat)
    (opts : FindSymOpts) (hv : r.vmlinux = some v) (hm : env.modmap = .ok mods) (hs : Sorted mods)
    (hd : Disjoint mods) (hmem : m ∈ mods) (hin : InMod m addr) :
    r.findSym env addr opts = findInModule env m.name m.addr addr opts := by
  unfold KernelResolver.findSym
  rw [hv, hm]
  simp only [C32_complete_partial hs addr hd.1 m hmem hin (hd.2 m hmem)]

theorem findSym_core (r : KernelResolver) (env : KernelEnv) (v : SymFn) (mods : List Mod) (addr : Nat)
    (opts : FindSymOpts) (hv : r.vmlinux = some v) (hm : env.modmap = .ok mods) (hs : Sorted mods)
    (hd : Disjoint mods) (hno : ∀ m ∈ mods, ¬ InMod m addr) :
    r.findSym env addr opts = findInCore v r.ksym r.kaslr addr opts := by
  unfold KernelResolver.findSym
  rw [hv, hm]
  obtain ⟨h1, h2⟩ := C32_unknown hs addr hd.1 hd.2
  cases mods with
  | nil => simp only [h1.mpr rfl]
  | cons a t => simp only [h2.mpr ⟨by simp, hno⟩]

/-- **C34** (modules): an address in a module is looked up, relative to the start of the module,
in that module's file alone: what it reports is the result, and the address is unknown if it
knows no symbol. -/
theorem C34_module (r : KernelResolver) (env : KernelEnv) (v : SymFn) (mods : List Mod) (m : Mod) (addr : Nat)
    (opts : FindSymOpts) (dir index path : Bytes) (f : SymFn)
    (hv : r.vmlinux = some v) (hm : env.modmap = .ok mods) (hs : Sorted mods)
    (hd : Disjoint mods) (hmem : m ∈ mods) (hin : InMod m addr)
    (hdep : env.depmod = .ok (dir, index)) (hp : findPath dir index m.name = .ok (some path))
    (hf : moduleResolver env path = .ok f) :
    (∀ s, f (addr - m.addr) opts = .ok (.ok s) → r.findSym env addr opts = .ok (.ok s)) ∧
    (∀ reason, f (addr - m.addr) opts = .ok (.error reason) → r.findSym env addr opts = .ok (.error .unknownAddr)) ∧
    (∀ e, f (addr - m.addr) opts = .error e → r.findSym env addr opts = .error e) := by
  rw [findSym_module r env v mods m addr opts hv hm hs hd hmem hin]
  unfold findInModule
  simp only [hdep, hp, hf, if_pos hin.1]
  refine ⟨?_, ?_, ?_⟩
  · intro s h; rw [h]
  · intro s h; rw [h]
  · intro s h; rw [h]

/-- **C34** (modules only): for an address in a module, neither the kernel image nor kallsyms nor
the KASLR offset has an influence. -/
theorem C34_module_only (r r' : KernelResolver) (env : KernelEnv) (v v' : SymFn) (mods : List Mod) (m : Mod)
    (addr : Nat) (opts : FindSymOpts) (hv : r.vmlinux = some v) (hv' : r'.vmlinux = some v')
    (hm : env.modmap = .ok mods) (hs : Sorted mods) (hd : Disjoint mods) (hmem : m ∈ mods) (hin : InMod m addr) :
    r.findSym env addr opts = r'.findSym env addr opts := by
  rw [findSym_module r env v mods m addr opts hv hm hs hd hmem hin,
    findSym_module r' env v' mods m addr opts hv' hm hs hd hmem hin]

/-- **C34** (modules without a file): an address in a module that the index does not list is
unknown; errors in finding or opening its file are reported. -/
theorem C34_module_missing (r : KernelResolver) (env : KernelEnv) (v : SymFn) (mods : List Mod) (m : Mod) (addr : Nat)
    (opts : FindSymOpts) (hv : r.vmlinux = some v) (hm : env.modmap = .ok mods) (hs : Sorted mods)
    (hd : Disjoint mods) (hmem : m ∈ mods) (hin : InMod m addr) (e : Err) :
    (env.depmod = .error e → r.findSym env addr opts = .error e) ∧
    (∀ dir index, env.depmod = .ok (dir, index) →
      (findPath dir index m.name = .ok none → r.findSym env addr opts = .ok (.error .unknownAddr)) ∧
      (findPath dir index m.name = .error e → r.findSym env addr opts = .error e) ∧
      ∀ path, findPath dir index m.name = .ok (some path) → moduleResolver env path = .error e →
        r.findSym env addr opts = .error e) := by
  rw [findSym_module r env v mods m addr opts hv hm hs hd hmem hin]
  unfold findInModule
  refine ⟨fun h => by rw [h], ?_⟩
  intro dir index h
  simp only [h]
  refine ⟨fun h => by rw [h], fun h => by rw [h], ?_⟩
  intro path h1 h2
  simp only [h1, h2]

/-- **C34** (core kernel): an address in no module, less the KASLR offset, is looked up in the
kernel image.  A symbol of known size is the result.  Instead of one without a size, what kallsyms
reports for the address is, if it reports a symbol.  If the image has no symbol, the result is
what kallsyms has to say, if it is available, and otherwise the image's reason. -/
theorem C34_core (r : KernelResolver) (env : KernelEnv) (v : SymFn) (mods : List Mod) (addr : Nat)
    (opts : FindSymOpts) (hv : r.vmlinux = some v) (hm : env.modmap = .ok mods) (hs : Sorted mods)
    (hd : Disjoint mods) (hno : ∀ m ∈ mods, ¬ InMod m addr) (x : Nat) (hx : x + r.kaslr = addr) :
    (∀ s size, v x opts = .ok (.ok s) → s.size = some size → r.findSym env addr opts = .ok (.ok s)) ∧
    (∀ s k s', v x opts = .ok (.ok s) → s.size = none → r.ksym = some k → k addr opts = .ok (.ok s') →
      r.findSym env addr opts = .ok (.ok s')) ∧
    (∀ s, v x opts = .ok (.ok s) → s.size = none →
      (∀ k, r.ksym = some k → k addr opts ≠ .error .panic ∧ ∀ s', k addr opts ≠ .ok (.ok s')) →
      r.findSym env addr opts = .ok (.ok s)) ∧
    (∀ s k, v x opts = .ok (.ok s) → s.size = none → r.ksym = some k → k addr opts = .error .panic →
      r.findSym env addr opts = .error .panic) ∧
    (∀ reason k, v x opts = .ok (.error reason) → r.ksym = some k → r.findSym env addr opts = k addr opts) ∧
    (∀ reason, v x opts = .ok (.error reason) → r.ksym = none → r.findSym env addr opts = .ok (.error reason)) ∧
    (∀ e, v x opts = .error e → r.findSym env addr opts = .error e) := by
  rw [findSym_core r env v mods addr opts hv hm hs hd hno]
  unfold findInCore
  rw [if_pos (by omega)]
  have : addr - r.kaslr = x := by omega
  rw [this]
  refine ⟨?_, ?_, ?_, ?_, ?_, ?_, ?_⟩
  · intro s size h1 h2
    simp [h1, h2]
  · intro s k s' h1 h2 h3 h4
    simp [h1, h2, h3, h4]
  · intro s h1 h2 h3
    simp only [h1, h2, if_true]
    cases hk : r.ksym with
    | none => rfl
    | some k =>
      simp only
      split
      · rename_i s' h4
        exact absurd h4 ((h3 k hk).2 s')
      · rename_i h4
        exact absurd h4 (h3 k hk).1
      · rfl
  · intro s k h1 h2 h3 h4
    simp [h1, h2, h3, h4]
  · intro reason k h1 h2
    simp only [h1, h2]
  · intro reason h1 h2
    simp only [h1, h2]
  · intro e h1
    simp only [h1]

/-- **C34** (errors): an address below the KASLR offset is refused, and the module map has to be
readable to use a kernel image at all. -/
theorem C34_refused (r : KernelResolver) (env : KernelEnv) (v : SymFn) (addr : Nat) (opts : FindSymOpts)
    (hv : r.vmlinux = some v) :
    (∀ mods, env.modmap = .ok mods → Sorted mods → Disjoint mods → (∀ m ∈ mods, ¬ InMod m addr) → addr < r.kaslr →
      r.findSym env addr opts = .error .invalidInput) ∧
    ∀ e, env.modmap = .error e → r.findSym env addr opts = .error e := by
  refine ⟨?_, ?_⟩
  · intro mods hm hs hd hno hlt
    rw [findSym_core r env v mods addr opts hv hm hs hd hno]
    unfold findInCore
    rw [if_neg (by omega)]
  · intro e hm
    unfold KernelResolver.findSym
    rw [hv, hm]

/-- **C34** (compressed modules): files with extension `gz`, `xz` and `zstd` are decompressed, all
others are used as they are. -/
theorem C34_compression (path : Bytes) :
    (compression path = some .gz ↔ HasExtension path (ascii "gz")) ∧
    (compression path = some .xz ↔ HasExtension path (ascii "xz")) ∧
    (compression path = some .zstd ↔ HasExtension path (ascii "zstd")) := by
  rw [hasExtension_iff _ _ (by decide +kernel) (by decide +kernel), hasExtension_iff _ _ (by decide +kernel) (by decide +kernel),
    hasExtension_iff _ _ (by decide +kernel) (by decide +kernel)]
  have h1 : ascii "gz" ≠ ascii "xz" := by decide +kernel
  have h2 : ascii "gz" ≠ ascii "zstd" := by decide +kernel
  have h3 : ascii "xz" ≠ ascii "zstd" := by decide +kernel
  have h4 : ascii "gz" ≠ [] := by decide +kernel
  have h5 : ascii "xz" ≠ [] := by decide +kernel
  have h6 : ascii "zstd" ≠ [] := by decide +kernel
  unfold compression
  generalize ascii "gz" = g at *
  generalize ascii "xz" = x at *
  generalize ascii "zstd" = z at *
  cases extension path with
  | none => simp [h4.symm, h5.symm, h6.symm]
  | some e =>
    simp only [Option.getD_some, Option.some.injEq]
    by_cases e1 : e = g
    · subst e1; simp [h1, h2]
    · by_cases e2 : e = x
      · subst e2; simp [h3, h1.symm]
      · by_cases e3 : e = z
        · subst e3; simp [e1, e2]
        · simp [e1, e2, e3]

theorem C34_module_file (env : KernelEnv) (path : Bytes) :
    (∀ c, compression path = some c → ∀ tmp, env.decompress c path = .ok tmp → moduleResolver env path =
      env.elfTemp tmp (withoutExtension path)) ∧
    (∀ c e, compression path = some c → env.decompress c path = .error e → moduleResolver env path = .error e) ∧
    (compression path = none → moduleResolver env path = env.elfPath path) := by
  unfold moduleResolver
  refine ⟨?_, ?_, ?_⟩
  · intro c h tmp h'; simp only [h, h']
  · intro c e h h'; simp only [h, h']
  · intro h; rw [h]

/-- **C34** (compressed modules, negative): files with the extension that the kernel's build uses
for Zstandard compression, `zst`, are not decompressed.  So the claim that compressed modules are
decompressed is false. -/
theorem C34_zst_not_decompressed (env : KernelEnv) (path : Bytes) (h : HasExtension path (ascii "zst")) :
    moduleResolver env path = env.elfPath path := by
  rw [hasExtension_iff _ _ (by decide +kernel) (by decide +kernel)] at h
  refine (C34_module_file env path).2.2 ?_
  unfold compression
  simp only [h, Option.getD_some]
  rw [if_neg (by decide +kernel), if_neg (by decide +kernel), if_neg (by decide +kernel)]

/-- **C34** (offset, negative): with a KASLR offset, the offset reported for a symbol of the
kernel image is too large by the KASLR offset.  So the claim that it is the distance of the address
from the start of the symbol is false. -/
theorem C34_offset_wrong (r : KernelResolver) (env : KernelEnv) (v : SymFn) (mods : List Mod) (addr : Nat)
    (opts : FindSymOpts) (demangler : Demangler) (demangle : Bool) (hv : r.vmlinux = some v)
    (hm : env.modmap = .ok mods) (hs : Sorted mods)
    (hd : Disjoint mods) (hno : ∀ m ∈ mods, ¬ InMod m addr) (x : Nat) (hx : x + r.kaslr = addr)
    (s : ResolvedSym) (size : Nat) (h : v x opts = .ok (.ok s)) (hsize : s.size = some size) (off : Nat)
    (hoff : s.addr + off = x) :
    ∃ sym, symbolizeWithResolver demangler demangle opts addr (r.findSym env) = .ok (.sym sym) ∧
      sym.addr = s.addr ∧ sym.offset = off + r.kaslr := by
  have := (C34_core r env v mods addr opts hv hm hs hd hno x hx).1 s size h hsize
  unfold symbolizeWithResolver
  simp only [this]
  unfold convertSym subU
  rw [if_pos (by omega)]
  exact ⟨_, rfl, rfl, by simp only; omega⟩

/-- **C34** (offset, negative): similarly for modules, by the start of the module. -/
theorem C34_module_offset_wrong (r : KernelResolver) (env : KernelEnv) (v : SymFn) (mods : List Mod) (m : Mod)
    (addr : Nat) (opts : FindSymOpts) (demangler : Demangler) (demangle : Bool) (dir index path : Bytes) (f : SymFn)
    (hv : r.vmlinux = some v) (hm : env.modmap = .ok mods) (hs : Sorted mods)
    (hd : Disjoint mods) (hmem : m ∈ mods) (hin : InMod m addr)
    (hdep : env.depmod = .ok (dir, index)) (hp : findPath dir index m.name = .ok (some path))
    (hf : moduleResolver env path = .ok f) (s : ResolvedSym) (h : f (addr - m.addr) opts = .ok (.ok s)) (off : Nat)
    (hoff : s.addr + off = addr - m.addr) :
    ∃ sym, symbolizeWithResolver demangler demangle opts addr (r.findSym env) = .ok (.sym sym) ∧
      sym.addr = s.addr ∧ sym.offset = off + m.addr := by
  have := (C34_module r env v mods m addr opts dir index path f hv hm hs hd hmem hin hdep hp hf).1 s h
  have hle := hin.1
  unfold symbolizeWithResolver
  simp only [this]
  unfold convertSym subU
  rw [if_pos (by omega)]
  exact ⟨_, rfl, rfl, by simp only; omega⟩

/-- **C34** (offset): without a KASLR offset and from kallsyms, the offset is the distance from the
start of the symbol. -/
theorem C34_offset_partial (r : KernelResolver) (env : KernelEnv) (k : SymFn) (addr : Nat) (opts : FindSymOpts)
    (demangler : Demangler) (demangle : Bool) (hv : r.vmlinux = none) (hk : r.ksym = some k) (s : ResolvedSym)
    (h : k addr opts = .ok (.ok s)) (off : Nat) (hoff : s.addr + off = addr) :
    ∃ sym, symbolizeWithResolver demangler demangle opts addr (r.findSym env) = .ok (.sym sym) ∧
      sym.addr = s.addr ∧ sym.offset = off := by
  have := (C34_kallsyms_only r env k addr opts hv hk).trans h
  unfold symbolizeWithResolver
  simp only [this]
  unfold convertSym subU
  rw [if_pos (by omega)]
  exact ⟨_, rfl, rfl, by simp only; omega⟩

/-- A kernel image with a function of 32 bytes at 0x1000, loaded 0x200000 further up. -/
def exImage : SymFn := fun addr _ =>
  .ok (if 0x1000 ≤ addr ∧ addr < 0x1020 then .ok ⟨ascii "start", none, 0x1000, some 0x20, .unknown, none, []⟩ else .error .unknownAddr)

def exEnv : KernelEnv where
  modmap := .ok [⟨ascii "mod", 0x900000, 0x1000⟩]
  depmod := .error .notFound
  decompress := fun _ _ => .error .unsupported
  elfPath := fun _ => .error .notFound
  elfTemp := fun _ _ => .error .notFound

/-- The offset in the function of 32 bytes is reported as 0x200010. -/
example : (match symbolizeWithResolver ⟨fun _ => none, fun _ => none⟩ false .basic 0x201010 (KernelResolver.findSym ⟨none, some exImage, 0x200000⟩ exEnv) with
    | .ok (.sym s) => s.offset
    | _ => 0) = 0x200010 := by decide +kernel

example : KernelResolver.findSym ⟨none, some exImage, 0x200000⟩ exEnv 0x201030 .basic = .ok (.error .unknownAddr) ∧
    KernelResolver.findSym ⟨none, some exImage, 0x200000⟩ exEnv 0x1010 .basic = .error .invalidInput ∧
    KernelResolver.findSym ⟨none, some exImage, 0x200000⟩ exEnv 0x900010 .basic = .error .notFound := by
  decide +kernel

example : Sorted [(⟨ascii "mod", 0x900000, 0x1000⟩ : Mod)] ∧ Disjoint [(⟨ascii "mod", 0x900000, 0x1000⟩ : Mod)] ∧
    InMod ⟨ascii "mod", 0x900000, 0x1000⟩ 0x900010 ∧ ¬ InMod ⟨ascii "mod", 0x900000, 0x1000⟩ 0x201010 := by
  refine ⟨by simp [Sorted], ⟨by simp, by simp⟩, ?_, ?_⟩ <;> unfold InMod <;> simp

/-! ## The choice of sources -/

theorem ignoring_used {A : Type} (r : Except Err A) : UsedIfLoaded r (ignoring r) := by
  unfold ignoring
  refine ⟨fun x h => by rw [h], fun e h hp => ?_, fun h => by rw [h]⟩
  rw [h]
  cases e <;> first | exact absurd rfl hp | rfl

/-- **C34** (kallsyms): a file that is asked for has to be loadable; the default one is used if it
is; with neither, kallsyms is not used. -/
theorem C34_select_kallsyms {A B : Type} (env : NewEnv A B) :
    (∀ path f, env.ksym path = .ok f → selectKsym env (.some path) = .ok (some f)) ∧
    (∀ path e, env.ksym path = .error e → selectKsym env (.some path) = .error e) ∧
    UsedIfLoaded (env.ksym (ascii "/proc/kallsyms")) (selectKsym env .default) ∧
    selectKsym env .none = .ok none := by
  unfold selectKsym
  refine ⟨?_, ?_, ignoring_used _, rfl⟩
  · intro p f h; simp only [h]
  · intro p f h; simp only [h]

/-- **C34** (kernel image): a file that is asked for has to be loadable; by default it is the first
that exists of the two usual places for the kernel's release, and is not used if that cannot be
loaded. -/
theorem C34_select_vmlinux {A B : Type} (env : NewEnv A B) :
    (∀ path f, env.elf path = .ok f → selectVmlinux env (.some path) = .ok (some f)) ∧
    (∀ path e, env.elf path = .error e → selectVmlinux env (.some path) = .error e) ∧
    (∀ e, env.release = .error e → selectVmlinux env .default = .error e) ∧
    (∀ rel, env.release = .ok rel →
      let boot := ascii "/boot/vmlinux-" ++ rel
      let debug := ascii "/usr/lib/debug/boot/vmlinux-" ++ rel
      (env.fileExists boot = true → UsedIfLoaded (env.elf boot) (selectVmlinux env .default)) ∧
      (env.fileExists boot = false → env.fileExists debug = true →
        UsedIfLoaded (env.elf debug) (selectVmlinux env .default)) ∧
      (env.fileExists boot = false → env.fileExists debug = false → selectVmlinux env .default = .ok none)) ∧
    selectVmlinux env .none = .ok none := by
  unfold selectVmlinux
  refine ⟨?_, ?_, ?_, ?_, rfl⟩
  · intro p f h; simp only [h]
  · intro p f h; simp only [h]
  · intro f h; simp only [h]
  · intro rel h boot debug
    have hp : vmlinuxPaths rel = [boot, debug] := by
      unfold vmlinuxPaths
      simp only [List.map_cons, List.map_nil, ← List.append_assoc]
      rfl
    simp only [h, hp]
    refine ⟨?_, ?_, ?_⟩
    · intro h1
      rw [List.find?_cons_of_pos h1]
      exact ignoring_used _
    · intro h1 h2
      rw [List.find?_cons_of_neg (by simp [h1]), List.find?_cons_of_pos h2]
      exact ignoring_used _
    · intro h1 h2
      rw [List.find?_cons_of_neg (by simp [h1]), List.find?_cons_of_neg (by simp [h2])]
      rfl

/-- **C34** (creation): there has to be a source of symbols; a given KASLR offset is used as is; it
is detected only if there is a kernel image, and zero otherwise. -/
theorem C34_new {A B : Type} (env : NewEnv A B) (kallsyms vmlinux : MaybeDefault Bytes) (kaslr : Option Nat) (k : Option A)
    (v : Option B)
    (hk : selectKsym env kallsyms = .ok k) (hv : selectVmlinux env vmlinux = .ok v) :
    (k = none → v = none → kernelResolverNew env kallsyms vmlinux kaslr = .error .notFound) ∧
    (∀ offset, k ≠ none ∨ v ≠ none → kaslr = some offset →
      kernelResolverNew env kallsyms vmlinux kaslr = .ok ⟨k, v, offset⟩) ∧
    (k ≠ none → v = none → kaslr = none → kernelResolverNew env kallsyms vmlinux kaslr = .ok ⟨k, none, 0⟩) ∧
    (∀ offset, v ≠ none → kaslr = none → env.kaslr k v = .ok offset →
      kernelResolverNew env kallsyms vmlinux kaslr = .ok ⟨k, v, offset⟩) ∧
    (∀ e, v ≠ none → kaslr = none → env.kaslr k v = .error e →
      kernelResolverNew env kallsyms vmlinux kaslr = .error e) := by
  unfold kernelResolverNew
  simp only [hk, hv]
  cases k <;> cases v <;> cases kaslr <;> simp
  all_goals refine ⟨?_, ?_⟩ <;> intro x h <;> simp only [h]

/-- **C34** (creation, errors): errors in loading the files asked for are reported, those of
kallsyms first. -/
theorem C34_new_errors {A B : Type} (env : NewEnv A B) (kallsyms vmlinux : MaybeDefault Bytes) (kaslr : Option Nat) (e : Err) :
    (selectKsym env kallsyms = .error e → kernelResolverNew env kallsyms vmlinux kaslr = .error e) ∧
    (∀ k, selectKsym env kallsyms = .ok k → selectVmlinux env vmlinux = .error e →
      kernelResolverNew env kallsyms vmlinux kaslr = .error e) := by
  unfold kernelResolverNew
  refine ⟨fun h => by rw [h], ?_⟩
  intro k h1 h2
  simp only [h1, h2]

/-- **C34** (no dead end): a resolver that was created has a source, so a lookup never panics for
lack of one. -/
theorem C34_new_has_source {A B : Type} (env : NewEnv A B) (kallsyms vmlinux : MaybeDefault Bytes) (kaslr : Option Nat)
    (r : KernelParts A B) (h : kernelResolverNew env kallsyms vmlinux kaslr = .ok r) :
    r.ksym ≠ none ∨ r.vmlinux ≠ none := by
  unfold kernelResolverNew at h
  split at h
  · simp at h
  · split at h
    · simp at h
    · split at h
      · simp at h
      · rename_i k _ _ v _ hn
        have : k ≠ none ∨ v ≠ none := by
          by_contra hc
          simp only [not_or, not_not] at hc
          exact hn (by simp [hc.1, hc.2])
        split at h
        · have := Except.ok.inj h; subst this; assumption
        · split at h
          · split at h
            · simp at h
            · have := Except.ok.inj h; subst this; assumption
          · have := Except.ok.inj h; subst this; assumption

end Blazesym.Kernel
