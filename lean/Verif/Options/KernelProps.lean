import Verif.Options.Props
import Verif.Session.KernelAnswerProps

/-! # C102: settings and the kernel -/

set_option autoImplicit false

namespace Blazesym.Options
open Blazesym.Util Blazesym.Symbolize Blazesym.Spec Blazesym.Spec.Symbolize Blazesym.Spec.Options Blazesym.Kernel
open Blazesym.Dwarf hiding Resolver

variable {M : Type}

theorem elfResolver_steady (t : Tools) (r : ElfResolver) : Steady (fun _ => True) (r.findSym t) := by
  cases r with
  | elf p => exact elf_steady t p
  | dwarf p d => exact dwarf_steady t p d

/-- If the lines of BPF programs can be read, symbols of kallsyms are found without errors. -/
theorem ksym_total {lines : BpfLines} (hl : ∀ tag e, lines tag ≠ .error e) (syms : List Ksym) (addr : Nat)
    (opts : FindSymOpts) : ∃ found, ksymFindSym lines syms addr opts = .ok found := by
  unfold ksymFindSym
  split
  · rename_i ksym _
    cases ksym with
    | kfunc a n => exact ⟨_, rfl⟩
    | bpfProg prog =>
      simp only [Ksym.resolve, BpfProg.resolve]
      cases h : lines prog.tag with
      | error e => exact absurd h (hl _ _)
      | ok records =>
        cases opts.wantsCodeInfo <;> exact ⟨_, rfl⟩
  · exact ⟨_, rfl⟩

theorem ksym_steady (lines : BpfLines) (syms : List Ksym) : Steady (fun _ => True) (ksymFindSym lines syms) := by
  intro addr opts opts' found found' h1 h2
  unfold ksymFindSym at h1 h2
  split at h1
  · rename_i ksym hk
    rw [hk] at h2
    simp only at h2
    split at h1
    · cases h1
    · rename_i r hr
      split at h2
      · cases h2
      · rename_i r' hr'
        cases h1; cases h2
        refine .inr ⟨r, r', rfl, rfl, ?_⟩
        cases ksym with
        | kfunc a n =>
          cases hr; cases hr'
          exact ⟨rfl, rfl, rfl, fun _ _ => ⟨rfl, rfl⟩⟩
        | bpfProg prog =>
          simp only [Ksym.resolve, BpfProg.resolve] at hr hr'
          split at hr
          · cases hr
          · split at hr'
            · cases hr'
            · cases hr; cases hr'
              exact ⟨rfl, rfl, rfl, fun _ _ => ⟨rfl, rfl⟩⟩
  · rename_i reason hk
    rw [hk] at h2
    cases h1; cases h2
    exact .inl ⟨_, rfl, rfl⟩

theorem core_steady {v : SymFn} (hv : Steady (fun _ => True) v) {ksym : Option SymFn}
    (hk : ∀ k, ksym = some k → Steady (fun _ => True) k ∧ ∀ addr opts, ∃ found, k addr opts = .ok found) (kaslr : Nat) :
    Steady (fun _ => True) (findInCore v ksym kaslr) := by
  intro addr opts opts' found found' h1 h2
  unfold findInCore at h1 h2
  split_ifs at h1 h2 with hle
  cases e1 : v (addr - kaslr) opts with
  | error e => rw [e1] at h1; cases h1
  | ok x =>
    cases e2 : v (addr - kaslr) opts' with
    | error e => rw [e2] at h2; cases h2
    | ok x' =>
      rw [e1] at h1
      rw [e2] at h2
      rcases hv _ _ _ _ _ e1 e2 with ⟨reason, rfl, rfl⟩ | ⟨r, r', rfl, rfl, a, b, c, d⟩
      · simp only at h1 h2
        cases ksym with
        | none => cases h1; cases h2; exact .inl ⟨_, rfl, rfl⟩
        | some k => exact (hk k rfl).1 _ _ _ _ _ h1 h2
      · have own : ∀ {y y'}, (Except.ok (.ok r) : Except Err (Except Reason ResolvedSym)) = .ok y →
            (Except.ok (.ok r') : Except Err (Except Reason ResolvedSym)) = .ok y' → _ := fun {y y'} h h' =>
          (show (∃ reason, y = .error reason ∧ y' = .error reason) ∨
            ∃ r r', y = .ok r ∧ y' = .ok r' ∧ r.module = r'.module ∧ r.addr = r'.addr ∧ r.size = r'.size ∧
              (True → True → r.name = r'.name ∧ r.lang = r'.lang) from
            .inr ⟨r, r', (Except.ok.inj h).symm, (Except.ok.inj h').symm, a, b, c, d⟩)
        simp only at h1 h2
        rw [← c] at h2
        split_ifs at h1 h2 with hs
        · cases ksym with
          | none => exact own h1 h2
          | some k =>
            obtain ⟨hst, ht⟩ := hk k rfl
            obtain ⟨y, hy⟩ := ht addr opts
            obtain ⟨y', hy'⟩ := ht addr opts'
            simp only [hy] at h1
            simp only [hy'] at h2
            rcases hst _ _ _ _ _ hy hy' with ⟨reason, rfl, rfl⟩ | ⟨q, q', rfl, rfl, rest⟩
            · exact own h1 h2
            · cases h1; cases h2
              exact .inr ⟨q, q', rfl, rfl, rest⟩
        · exact own h1 h2

theorem module_steady {env : KernelEnv} (he : ∀ path f, env.elfPath path = .ok f → Steady (fun _ => True) f)
    (ht : ∀ tmp path f, env.elfTemp tmp path = .ok f → Steady (fun _ => True) f) (name : Bytes) (base : Nat) :
    Steady (fun _ => True) (findInModule env name base) := by
  intro addr opts opts' found found' h1 h2
  unfold findInModule at h1 h2
  split at h1
  · cases h1
  · rename_i hd
    rw [hd] at h2
    simp only at h2
    split at h1
    · cases h1
    · rename_i hp
      rw [hp] at h2
      cases h1; cases h2
      exact .inl ⟨_, rfl, rfl⟩
    · rename_i path hp
      rw [hp] at h2
      simp only at h2
      split at h1
      · cases h1
      · rename_i f hf
        rw [hf] at h2
        simp only at h2
        have hst : Steady (fun _ => True) f := by
          unfold moduleResolver at hf
          split at hf
          · split at hf
            · cases hf
            · exact ht _ _ _ hf
          · exact he _ _ hf
        split_ifs at h1 h2
        cases e1 : f (addr - base) opts with
        | error e => rw [e1] at h1; cases h1
        | ok x =>
          cases e2 : f (addr - base) opts' with
          | error e => rw [e2] at h2; cases h2
          | ok x' =>
            rw [e1] at h1
            rw [e2] at h2
            rcases hst _ _ _ _ _ e1 e2 with ⟨reason, rfl, rfl⟩ | ⟨q, q', rfl, rfl, rest⟩
            · cases h1; cases h2
              exact .inl ⟨_, rfl, rfl⟩
            · cases h1; cases h2
              exact .inr ⟨q, q', rfl, rfl, rest⟩

theorem kernel_steady {t : Tools} {dirs : List Bytes} {w : World M} {r : Remembered} {src : KernelSource} {f : SymFn}
    (hl : ∀ tag e, w.sys.bpfLines tag ≠ .error e) (h : kernelAt t dirs w r src = .ok f) :
    Steady (fun _ => True) f := by
  unfold kernelAt at h
  split at h
  · cases h
  · rename_i parts _
    cases h
    have hk : ∀ k, parts.ksym.map (ksymFindSym w.sys.bpfLines) = some k →
        Steady (fun _ => True) k ∧ ∀ addr opts, ∃ found, k addr opts = .ok found := by
      intro k hk
      obtain ⟨syms, _, rfl⟩ := Option.map_eq_some_iff.mp hk
      exact ⟨ksym_steady _ _, ksym_total hl _⟩
    have helf : ∀ a b f, ((kernelElfAt t dirs w src.debugSyms a b).map (·.findSym t)) = .ok f → Steady (fun _ => True) f := by
      intro a b f hf
      cases hx : kernelElfAt t dirs w src.debugSyms a b with
      | error e => rw [hx] at hf; cases hf
      | ok x => rw [hx] at hf; cases hf; exact elfResolver_steady t x
    intro addr opts opts' found found' h1 h2
    unfold KernelResolver.findSym at h1 h2
    simp only at h1 h2
    cases hv : parts.vmlinux with
    | some v =>
      rw [hv] at h1 h2
      simp only [Option.map_some] at h1 h2
      split at h1
      · cases h1
      · rename_i hm
        rw [hm] at h2
        simp only at h2
        split at h1
        · cases h1
        · rename_i hf
          rw [hf] at h2
          exact module_steady (fun p f h => helf p p f h) (fun a b f h => helf a b f h) _ _ _ _ _ _ _ h1 h2
        · rename_i hf
          rw [hf] at h2
          exact core_steady (elfResolver_steady t v) hk _ _ _ _ _ _ h1 h2
    | none =>
      rw [hv] at h1 h2
      simp only [Option.map_none] at h1 h2
      cases hk' : parts.ksym with
      | none => rw [hk'] at h1; cases h1
      | some syms =>
        rw [hk'] at h1 h2
        exact ksym_steady _ _ _ _ _ _ _ h1 h2

/-- **C102** (kernel, partial: the lines of BPF programs can be read) Asking for source locations and inlined functions,
or not asking for them, does not change the symbols of the kernel, its modules and BPF programs, by what a symbolizer
has to work with after any history. -/
theorem C102_kernel_partial [DecidableEq M] (cfg : Settings M (KernelCache M)) (codeInfo inlinedFns : Bool) (w : World M)
    (s : State M (KernelCache M)) (hl : ∀ tag e, w.sys.bpfLines tag ≠ .error e) (src : KernelSource) :
    (∀ input outs outs', symbolize (envWithKernel cfg w s) (.kernel src) input = .ok outs →
      symbolize (envWithKernel { cfg with codeInfo, inlinedFns } w s) (.kernel src) input = .ok outs' →
      List.Forall₂ (Both (SourceAside True) True) outs outs') ∧
    ∀ input out out', symbolizeSingle (envWithKernel cfg w s) (.kernel src) input = .ok out →
      symbolizeSingle (envWithKernel { cfg with codeInfo, inlinedFns } w s) (.kernel src) input = .ok out' →
      Both (SourceAside True) False out out' := by
  have key : ∀ (addr : Nat) (f : SymFn) (lenient : Prop), (envWithKernel cfg w s).kernel src = .ok f →
      WRel False (Both (SourceAside True) lenient) ((envWithKernel cfg w s).symbolizeWith addr f)
        ((envWithKernel { cfg with codeInfo, inlinedFns } w s).symbolizeWith addr f) := by
    intro addr f lenient hf
    have := with_source (envWithKernel cfg w s) (findSymOpts codeInfo inlinedFns)
      (kernel_steady (f := f) hl hf) addr lenient
    simp only [and_self] at this
    exact this
  have same : (envWithKernel { cfg with codeInfo, inlinedFns } w s).kernel src = (envWithKernel cfg w s).kernel src := rfl
  generalize envWithKernel cfg w s = env at key same ⊢
  generalize envWithKernel { cfg with codeInfo, inlinedFns } w s = env' at key same ⊢
  have impl : ∀ (lenient : Prop) (fold : Err → Except Err Symbolized),
      (∀ x y, WRel False (Both (SourceAside True) lenient) x y →
        WRel False (Both (SourceAside True) lenient) (orElse fold x) (orElse fold y)) → ∀ input,
      WRel False (List.Forall₂ (WRel False (Both (SourceAside True) lenient)))
        (symbolizeImpl env (.kernel src) input fold) (symbolizeImpl env' (.kernel src) input fold) := by
    intro lenient fold ho input
    unfold symbolizeImpl
    cases input with
    | absAddr addrs =>
      simp only [same]
      cases hf : env.kernel src with
      | error e => exact .same _
      | ok f => exact .ok _ _ (map_rel ho _ fun addr => key addr f lenient hf)
    | virtOffset _ => exact .same _
    | fileOffset _ => exact .same _
  constructor
  · intro input outs outs' h h'
    have ho : ∀ x y, WRel False (Both (SourceAside True) True) x y →
        WRel False (Both (SourceAside True) True) (orElse (fun _ => .ok (.unknown .ignoredError)) x)
          (orElse (fun _ => .ok (.unknown .ignoredError)) y) := by
      intro x y h
      refine orElse_wrel ?_ ?_ ?_ h
      · intro e e' _
        cases e <;> cases e' <;> first
          | exact .same _
          | exact .ok _ _ (.unknown _)
          | exact .anyLeft id _ _
          | exact .anyRight id _ _
      · intro _ a e
        cases e <;> first | exact .ok _ _ (.right _ trivial) | exact .anyLeft id _ _
      · intro _ e b
        cases e <;> first | exact .ok _ _ (.left _ trivial) | exact .anyRight id _ _
    have := impl True _ ho input
    unfold symbolize at h h'
    generalize symbolizeImpl env _ input _ = x at this h
    generalize symbolizeImpl env' _ input _ = y at this h'
    cases this with
    | errors e e' _ => cases h
    | left a e _ => cases h'
    | right e b _ => cases h
    | ok a b hab =>
      have := collect_rel hab
      simp only at h h'
      rw [h, h'] at this
      exact both_ok this
  · intro input out out' h h'
    have ho : ∀ x y, WRel False (Both (SourceAside True) False) x y →
        WRel False (Both (SourceAside True) False) (orElse (fun e => .error e) x) (orElse (fun e => .error e) y) := by
      intro x y h
      rwa [orElse_keep, orElse_keep]
    have := impl False _ ho (input.map fun addr => [addr])
    unfold symbolizeSingle at h h'
    generalize symbolizeImpl env _ _ _ = x at this h
    generalize symbolizeImpl env' _ _ _ = y at this h'
    cases this with
    | errors e e' _ => cases h
    | left a e _ => cases h'
    | right e b _ => cases h
    | ok a b hab =>
      cases hab with
      | nil => cases h
      | cons h1 t =>
        cases t with
        | nil =>
          simp only at h h'
          rw [h, h'] at h1
          exact both_ok h1
        | cons _ _ => cases h

/-- A machine with a kernel image, modules, kallsyms and BPF programs without lines. -/
def exReadable : World Nat := { exMachine 2 true with sys := { (exMachine 2 true).sys with bpfLines := fun _ => .ok none } }

set_option maxRecDepth 20000 in
/-- An address in the core kernel. -/
example : (shown (symbolizeSingle (envWithKernel (exKernel true) exReadable (State.new (exKernel true)))
      (.kernel ⟨.default, .some (ascii "/stext"), none, false⟩) (.absAddr 0x3004))).map Prod.fst = some (ascii "_stext") ∧
    (shown (symbolizeSingle (envWithKernel { exKernel true with codeInfo := false, inlinedFns := false } exReadable
      (State.new (exKernel true))) (.kernel ⟨.default, .some (ascii "/stext"), none, false⟩) (.absAddr 0x3004))).map
        Prod.fst = some (ascii "_stext") := by
  decide +kernel

example (out out' : Symbolized)
    (h : symbolizeSingle (envWithKernel (exKernel true) exReadable (State.new (exKernel true)))
      (.kernel ⟨.default, .some (ascii "/stext"), none, false⟩) (.absAddr 0x3004) = .ok out)
    (h' : symbolizeSingle (envWithKernel { exKernel true with codeInfo := false, inlinedFns := false } exReadable
      (State.new (exKernel true))) (.kernel ⟨.default, .some (ascii "/stext"), none, false⟩) (.absAddr 0x3004) = .ok out') :
    Both (SourceAside True) False out out' :=
  (C102_kernel_partial (exKernel true) false false exReadable (State.new (exKernel true))
    (by intro tag e h; cases h) _).2 _ _ _ h h'

/-- A kernel image with a symbol of unknown size, `end`, and a BPF program `p` behind it whose lines cannot be read. -/
def exUnreadable : KernelResolver :=
  ⟨some (ksymFindSym (fun _ => .error .permissionDenied) [.bpfProg ⟨0x2000, ascii "p", []⟩]),
    some fun _ _ => .ok (.ok ⟨ascii "end", none, 0x1000, none, .unknown, none, []⟩), 0⟩

/-- No modules. -/
def exNoModules : KernelEnv where
  modmap := .ok []
  depmod := .error .notFound
  decompress := fun _ _ => .error .notFound
  elfPath := fun _ => .error .notFound
  elfTemp := fun _ _ => .error .notFound

/-- **C102** (negation, BPF programs) If the lines of a BPF program cannot be read, asking for source locations changes
which symbol is reported where the kernel image has a symbol of unknown size: the error is dropped and the symbol of the
image is reported in place of the program. -/
theorem C102_bpf_wrong :
    exUnreadable.findSym exNoModules 0x2008 .basic =
      .ok (.ok ⟨ascii "p", some (ascii "[bpf]"), 0x2000, none, .unknown, none, []⟩) ∧
    exUnreadable.findSym exNoModules 0x2008 .codeInfo =
      .ok (.ok ⟨ascii "end", none, 0x1000, none, .unknown, none, []⟩) := by
  constructor <;> decide +kernel

end Blazesym.Options
