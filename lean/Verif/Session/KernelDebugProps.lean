import Verif.Session.KernelDebugSpec
import Verif.Session.KernelAnswerProps
import Verif.Dwarf.NameProps
import Verif.Dwarf.TotalExamples

/-! Property theorems C73 (what is reported for an address of the kernel if debug information is used). -/

set_option autoImplicit false

namespace Blazesym.Symbolize
open Blazesym.Util Blazesym.Cache Blazesym.Spec Blazesym.Spec.Symbolize Blazesym.Kernel Blazesym.Kernel.Depmod
open Blazesym.Dwarf hiding Resolver

variable {M : Type}

/-! ### Files -/

theorem kernelElfAt_debug {cfg : Settings M (KernelCache M)} {w : World M} {actual represented : Bytes} :
    (∀ r, kernelElfAt cfg.tools cfg.debugDirs w true actual represented = .ok r →
      ∃ data d, HasContents w (w.disk.stat actual) data ∧ DebugOf cfg w represented data d ∧
        r = .dwarf ⟨some represented, .mem 4096 data⟩ d) ∧
    ∀ e, kernelElfAt cfg.tools cfg.debugDirs w true actual represented = .error e →
      ∀ data, HasContents w (w.disk.stat actual) data → ∀ d, ¬ DebugOf cfg w represented data d := by
  unfold kernelElfAt
  have hel : elfAt w w.disk.stat actual represented =
      match fileOf w (w.disk.stat actual) with | .error e => .error e | .ok f => elfParse represented f := rfl
  cases hf : fileOf w (w.disk.stat actual) with
  | error e =>
    rw [hf] at hel
    rw [hel]
    refine ⟨fun r h => (by cases h), ?_⟩
    rintro e' _ data hc d _
    rw [fileOf_ok.mpr hc] at hf
    cases hf
  | ok f =>
    rw [hf] at hel
    rw [hel]
    cases f with
    | error e =>
      refine ⟨fun r h => (by simp [elfParse] at h), ?_⟩
      rintro e' _ data hc d _
      rw [fileOf_ok.mpr hc] at hf
      cases hf
    | ok data =>
      simp only [elfParse, if_true]
      cases hd : (fromParser cfg.tools w.files cfg.debugDirs ⟨some represented, .mem 4096 data⟩).eval
          (fun q => elfAt w w.disk.stat q q) with
      | ok d =>
        refine ⟨fun r h => ?_, fun e h => (by cases h)⟩
        simp only [Except.ok.injEq] at h
        exact ⟨data, d, fileOf_ok.mp hf, hd, h.symm⟩
      | error e =>
        refine ⟨fun r h => (by cases h), ?_⟩
        rintro e' _ data' hc d hd'
        rw [fileOf_ok.mpr hc] at hf
        cases hf
        unfold DebugOf at hd'
        rw [hd] at hd'
        cases hd'

/-! ### Sources -/

def debugResolver : Option (Bytes × Bytes × DebugData) → Option ElfResolver :=
  Option.map fun i => .dwarf ⟨some i.1, .mem 4096 i.2.1⟩ i.2.2

theorem uses_debug_image {cfg : Settings M (KernelCache M)} {w : World M} {r : Remembered} {src : KernelSource}
    {v : Option ElfResolver} (h : selectVmlinux (sourcesAt cfg.tools cfg.debugDirs w r true) src.vmlinux = .ok v) :
    ∃ image, UsesDebugImage cfg w src image ∧ v = debugResolver image := by
  obtain ⟨g1, g2, g3, g4, g5⟩ := C34_select_vmlinux (sourcesAt cfg.tools cfg.debugDirs w r true)
  cases hs : src.vmlinux with
  | none =>
    rw [hs, g5] at h
    cases h
    exact ⟨none, .none hs, rfl⟩
  | some path =>
    rw [hs] at h
    cases hk : kernelElfAt cfg.tools cfg.debugDirs w true path path with
    | error e => rw [g2 path e hk] at h; cases h
    | ok f =>
      rw [g1 path f hk] at h
      cases h
      obtain ⟨data, d, h1, h2, rfl⟩ := kernelElfAt_debug.1 f hk
      exact ⟨some (path, data, d), .given path data d hs h1 h2, rfl⟩
  | default =>
    rw [hs] at h
    cases hr : w.sys.release with
    | error e => rw [g3 e hr] at h; cases h
    | ok rel =>
      obtain ⟨k1, k2, k3⟩ := g4 rel hr
      have used : ∀ path, UsualImage w rel path →
          Spec.Kernel.UsedIfLoaded (kernelElfAt cfg.tools cfg.debugDirs w true path path) (.ok v) →
          ∃ image, UsesDebugImage cfg w src image ∧ v = debugResolver image := by
        rintro path hu ⟨u1, u2, u3⟩
        cases hk : kernelElfAt cfg.tools cfg.debugDirs w true path path with
        | ok f =>
          have := u1 f hk
          cases this
          obtain ⟨data, d, h1, h2, rfl⟩ := kernelElfAt_debug.1 f hk
          exact ⟨some (path, data, d), .usual rel path data d hs hr hu h1 h2, rfl⟩
        | error e =>
          by_cases he : e = .panic
          · subst he; have := u3 hk; cases this
          · have := u2 e hk he
            cases this
            exact ⟨none, .unusable rel path hs hr hu (kernelElfAt_debug.2 e hk), rfl⟩
      cases hb : (w.disk.stat (ascii "/boot/vmlinux-" ++ rel)).toBool with
      | true =>
        obtain ⟨m, hm⟩ := stat_true hb
        have := k1 hb
        rw [h] at this
        exact used _ (.boot m hm) this
      | false =>
        obtain ⟨e, he⟩ := stat_false hb
        cases hd : (w.disk.stat (ascii "/usr/lib/debug/boot/vmlinux-" ++ rel)).toBool with
        | true =>
          obtain ⟨m, hm⟩ := stat_true hd
          have := k2 hb hd
          rw [h] at this
          exact used _ (.debug m e he hm) this
        | false =>
          obtain ⟨e', he'⟩ := stat_false hd
          have := k3 hb hd
          rw [h] at this
          cases this
          refine ⟨none, .absent rel hs hr ?_, rfl⟩
          intro path hu
          cases hu with
          | boot m hm => rw [he] at hm; cases hm
          | debug m e hm hm' => rw [he'] at hm'; cases hm'

theorem module_debug {cfg : Settings M (KernelCache M)} {w : World M} {r : Remembered} {path : Bytes} {f : SymFn}
    (h : moduleResolver (modulesAt cfg.tools cfg.debugDirs w r true) path = .ok f) :
    ∃ represented data d, ModuleData w path represented data ∧ DebugOf cfg w represented data d ∧
      f = ElfResolver.findSym cfg.tools (.dwarf ⟨some represented, .mem 4096 data⟩ d) := by
  have plain : ∀ actual represented,
      (kernelElfAt cfg.tools cfg.debugDirs w true actual represented).map (·.findSym cfg.tools) = .ok f →
      ∃ data d, HasContents w (w.disk.stat actual) data ∧ DebugOf cfg w represented data d ∧
        f = ElfResolver.findSym cfg.tools (.dwarf ⟨some represented, .mem 4096 data⟩ d) := by
    intro actual represented hk
    cases he : kernelElfAt cfg.tools cfg.debugDirs w true actual represented with
    | error e => rw [he] at hk; cases hk
    | ok p =>
      rw [he] at hk
      cases hk
      obtain ⟨data, d, h1, h2, rfl⟩ := kernelElfAt_debug.1 p he
      exact ⟨data, d, h1, h2, rfl⟩
  unfold moduleResolver modulesAt at h
  cases hc : compression path with
  | none =>
    rw [hc] at h
    obtain ⟨data, d, h1, h2, h3⟩ := plain path path h
    exact ⟨path, data, d, .plain data hc h1, h2, h3⟩
  | some c =>
    rw [hc] at h
    simp only at h
    cases hd : w.sys.decompress c path with
    | error e => rw [hd] at h; cases h
    | ok tmp =>
      rw [hd] at h
      obtain ⟨data, d, h1, h2, h3⟩ := plain tmp (withoutExtension path) h
      exact ⟨_, data, d, .compressed c tmp data hc hd h1, h2, h3⟩

/-! ### Lookups -/

/-- Where in the source an address is that only symbols know about. -/
def PlacedBy (db : Sections) (opts : FindSymOpts) (x : Nat) (s : ResolvedSym) : Prop :=
  Spec.Dwarf.LinesOrderly db → Spec.Dwarf.LineWanted db x opts s.codeInfo ∧ s.inlined = []

/-- The same result of a lookup, except for where in the source the address is. -/
inductive SameFound (db : Sections) (opts : FindSymOpts) (x : Nat) :
    Except Err (Except Reason ResolvedSym) → Except Err (Except Reason ResolvedSym) → Prop
  | sym (s s' : ResolvedSym) : s.name = s'.name → s.module = s'.module → s.addr = s'.addr → s.size = s'.size →
      s.lang = s'.lang → PlacedBy db opts x s → SameFound db opts x (.ok (.ok s)) (.ok (.ok s'))
  | reason (r : Reason) : SameFound db opts x (.ok (.error r)) (.ok (.error r))

/-- What an ELF file with debug information yields. -/
inductive FromDebug (module : Bytes) (units : List Dwarf.Unit) (s : Sections) (file : Bytes) (symtab dynsym : Elf.SymTab)
    (opts : FindSymOpts) (x : Nat) : Except Err (Except Reason ResolvedSym) → Prop
  | function (sym : ResolvedSym) (hd : Header) (d : DieUnit) (e : Nat × Dwarf.Entry) (name : Option Bytes) :
      Spec.Dwarf.UnitFor s x hd → Spec.Dwarf.FunctionFor hd x d e → Spec.Dwarf.HasName units d e.2.attrs name →
      sym.name = name.getD [] → sym.module = some module → Spec.Dwarf.WrittenIn hd sym.lang →
      (Spec.Dwarf.rangesOf e.2.attrs = none → ∃ r, Spec.Dwarf.spanOf e.2.attrs = some r ∧ sym.addr = r.start ∧
        sym.size = some (r.stop - r.start)) →
      (Spec.Dwarf.LinesOrderly s → Spec.Dwarf.SourceOf units s hd d e.1 x opts sym.codeInfo sym.inlined) →
      FromDebug module units s file symtab dynsym opts x (.ok (.ok sym))
  | symbols (r r' : Except Err (Except Reason ResolvedSym)) : NoFunction s x → FromElf file symtab dynsym x r' →
      SameFound s opts x r r' → FromDebug module units s file symtab dynsym opts x r
  | error (e : Err) : FromDebug module units s file symtab dynsym opts x (.error e)

theorem fromElf_plain {module : Bytes} {symtab dynsym : Elf.SymTab} {x : Nat} {sym : ResolvedSym}
    (h : FromElf module symtab dynsym x (.ok (.ok sym))) : sym.codeInfo = none ∧ sym.inlined = [] := by
  cases h
  exact ⟨rfl, rfl⟩

theorem from_debug {t : Tools} {module : Bytes} {backend : Elf.Backend} {d : DebugData} {s : Sections} {file : Bytes}
    {symtab dynsym : Elf.SymTab} (hp : DebugParts t module backend d s file symtab dynsym) {x : Nat}
    (hx : x + 1 < 2 ^ 64) (opts : FindSymOpts) :
    FromDebug module d.units.units s file symtab dynsym opts x
      (ElfResolver.findSym t (.dwarf ⟨some module, backend⟩ d) x opts) := by
  obtain ⟨hu, hs, hap, image, phdrs, hfile, hparts⟩ := hp
  cases hr : ElfResolver.findSym t (.dwarf ⟨some module, backend⟩ d) x opts with
  | error e => exact .error e
  | ok res =>
    by_cases hex : ∃ hd du e, Spec.Dwarf.UnitFor s x hd ∧ Spec.Dwarf.FunctionFor hd x du e
    · obtain ⟨hd, du, e, h1, h2⟩ := hex
      obtain ⟨sym, hd', d', e', name, rfl, k1, k2, k3, k4, k5, kl, k6, k7⟩ :=
        C64_function_partial t.σ s (d.resolver t ⟨some module, backend⟩) hu hs hap x hx opts hd du e h1 h2 res hr
      refine .function sym hd' d' e' name k1 k2 k3 k4 k5 kl (fun hrg => ?_) k7
      obtain ⟨⟨r, r1, r2, r3⟩, _⟩ := k6 hrg
      exact ⟨r, r1, r2, r3⟩
    · have hno : NoFunction s x := fun hd du e h1 h2 => hex ⟨hd, du, e, h1, h2⟩
      obtain ⟨elf, h1, h2⟩ :=
        C64_fallback t.σ s (d.resolver t ⟨some module, backend⟩) hu hs x hx opts hno res hr
      have h1' : (d.linkee.getD ⟨some module, backend⟩).findSym t x opts = .ok elf := h1
      rw [hfile] at h1'
      have hfe := from_elf t (module := file) hparts x opts
      change FromElf file symtab dynsym x (ElfParser.findSym t ⟨some file, image⟩ x opts) at hfe
      rw [h1'] at hfe
      refine .symbols _ (.ok elf) hno hfe ?_
      cases elf with
      | error reason =>
        simp only at h2
        subst h2
        exact .reason reason
      | ok sym =>
        obtain ⟨sym', rfl, n1, n2, n3, n4, n5, n6⟩ := h2
        obtain ⟨e1, e2⟩ := fromElf_plain hfe
        exact .sym sym' sym n1 n2 n3 n4 n5 (fun ho => n6 ho e1 e2)

theorem looked_of_found {env : Env} {find : SymFn} {addr : Nat} {s : ResolvedSym}
    (hf : find addr env.opts = .ok (.ok s)) {out : Symbolized} (h : Looked env find addr (.ok out)) :
    ∃ y, out = .sym y ∧ y.name = env.shown s.lang s.name ∧ y.module = s.module ∧ y.addr = s.addr ∧
      y.addr + y.offset = addr ∧ y.size = s.size ∧ y.codeInfo = s.codeInfo ∧
      y.inlined = s.inlined.map fun f => { name := env.shown s.lang f.name, codeInfo := f.codeInfo } := by
  generalize hg : (Except.ok out : Except Err Symbolized) = o at h
  cases h with
  | sym s' name names h1 h2 h3 h4 =>
    rw [hf] at h1
    cases h1
    cases hg
    exact ⟨_, rfl, h3, rfl, rfl, by simp only; omega, rfl, rfl, by rw [h4]; exact zip_names _ _⟩
  | reason r h1 => rw [hf] at h1; cases h1
  | error e h1 => rw [hf] at h1; cases h1
  | behind s' h1 h2 => cases hg

/-- What a lookup results in, by what is found. -/
def foundAs (r : Except Err (Except Reason ResolvedSym)) : SymFn := fun _ _ => r

theorem samePlace_of {env : Env} {db : Sections} {x : Nat} {find find' : SymFn} {addr : Nat}
    (hs : SameFound db env.opts x (find addr env.opts) (find' addr env.opts)) {out : Symbolized}
    (h : Looked env find addr (.ok out)) :
    ∃ out', Looked env find' addr (.ok out') ∧ SamePlace db env.opts x out out' := by
  generalize hr : find addr env.opts = r at hs
  generalize hr' : find' addr env.opts = r' at hs
  cases hs with
  | reason reason =>
    have := looked_of_reason hr h
    cases this
    exact ⟨_, .reason reason hr', .unknown reason⟩
  | sym s s' n1 n2 n3 n4 n5 n6 =>
    obtain ⟨y, rfl, k1, k2, k3, k4, k5, k6, k7⟩ := looked_of_found hr h
    refine ⟨_, .sym s' _ _ hr' (by omega) rfl rfl, .sym _ _ ?_ ?_ ?_ ?_ ?_ ?_⟩
    · rw [k1, n1, n5]; rfl
    · rw [k2, n2]
    · rw [k3, n3]
    · simp only; omega
    · rw [k5, n4]
    · intro ho
      obtain ⟨q1, q2⟩ := n6 ho
      rw [k6, k7, q2]
      exact ⟨q1, rfl⟩

theorem findInCore_same {db : Sections} {x : Nat} {v v' : SymFn} {k : Option SymFn} {offset addr : Nat}
    {opts : FindSymOpts} (hle : offset ≤ addr)
    (hs : SameFound db opts x (v (addr - offset) opts) (v' (addr - offset) opts)) :
    (∃ f, k = some f ∧ findInCore v k offset addr opts = f addr opts ∧ findInCore v' k offset addr opts = f addr opts) ∨
      SameFound db opts x (findInCore v k offset addr opts) (findInCore v' k offset addr opts) := by
  unfold findInCore
  rw [if_pos hle, if_pos hle]
  generalize v (addr - offset) opts = r at hs
  generalize v' (addr - offset) opts = r' at hs
  cases hs with
  | reason reason =>
    cases k with
    | none => exact .inr (.reason _)
    | some f => exact .inl ⟨f, rfl, rfl, rfl⟩
  | sym s s' n1 n2 n3 n4 n5 n6 =>
    simp only
    rw [← n4]
    by_cases h0 : s.size = none
    · rw [if_pos h0, if_pos h0]
      cases k with
      | none => exact .inr (.sym s s' n1 n2 n3 n4 n5 n6)
      | some f =>
        simp only
        split
        · next hf => exact .inl ⟨f, rfl, hf.symm, hf.symm⟩
        · next hf => exact .inl ⟨f, rfl, hf.symm, hf.symm⟩
        · exact .inr (.sym s s' n1 n2 n3 n4 n5 n6)
    · rw [if_neg h0, if_neg h0]
      exact .inr (.sym s s' n1 n2 n3 n4 n5 n6)

theorem in_core_debug {env : Env} {image : Bytes} {units : List Dwarf.Unit} {s : Sections} {file : Bytes}
    {symtab dynsym : Elf.SymTab} {v : SymFn} {k : Option SymFn}
    {kallsyms : Option (List Ksym)} {offset addr x : Nat} (hx : x + offset = addr)
    (hv : FromDebug image units s file symtab dynsym env.opts x (v x env.opts))
    (hk : match kallsyms, k with
      | none, none => True
      | some ks, some f => FromKallsyms ks addr (f addr env.opts)
      | _, _ => False)
    {out : Symbolized} (h : Looked env (findInCore v k offset) addr (.ok out)) :
    InCoreDebug env.shown env.opts image units s file symtab dynsym kallsyms addr x out := by
  have hle : offset ≤ addr := by omega
  have hsub : addr - offset = x := by omega
  have hred : findInCore v k offset addr env.opts = findInCore v k offset addr env.opts := rfl
  conv at hred => rhs; unfold findInCore
  rw [if_pos hle, hsub] at hred
  generalize hr : v x env.opts = r at hv hred
  cases hv with
  | error e =>
    have := looked_of_error hred h
    cases this
  | symbols _ r' hno hfe hsame =>
    have hs' : SameFound s env.opts x (v (addr - offset) env.opts) (foundAs r' (addr - offset) env.opts) := by
      rw [hsub, hr]; exact hsame
    rcases findInCore_same (k := k) hle hs' with ⟨f, rfl, h1, h2⟩ | h1
    · cases kallsyms with
      | none => cases hk
      | some ks =>
        exact .kallsyms ks out hno (in_core hx (v := foundAs r') hfe hk (looked_congr (h1.trans h2.symm) h)) rfl
          (in_kallsyms hk (looked_congr h1 h))
    · obtain ⟨out', h2, h3⟩ := samePlace_of (find' := findInCore (foundAs r') k offset) h1 h
      exact .symbols out out' hno (in_core hx (v := foundAs r') hfe hk h2) h3
  | function sym hd d e name k1 k2 k3 k4 k5 kl k6 k7 =>
    have tells : ∀ (y : Sym) (a : Nat), y.name = env.shown sym.lang sym.name → y.module = sym.module → y.addr = sym.addr →
        y.addr + y.offset = a → y.size = sym.size → y.codeInfo = sym.codeInfo →
        y.inlined = sym.inlined.map (fun f => { name := env.shown sym.lang f.name, codeInfo := f.codeInfo }) →
        TellsFunction env.shown env.opts image units s a x y := by
      intro y a y1 y2 y3 y4 y5 y6 y7
      refine ⟨hd, d, e, name, _, k1, k2, k3, kl, by rw [y1, k4], by rw [y2, k5], y4, fun hrg => ?_,
        fun ho => ⟨_, by rw [y6]; exact k7 ho, y7⟩⟩
      obtain ⟨r, r1, r2, r3⟩ := k6 hrg
      exact ⟨r, r1, by rw [y3, r2], by rw [y5, r3]⟩
    by_cases h0 : sym.size = none
    · simp only [h0, if_true] at hred
      have fallback : findInCore v k offset addr env.opts = .ok (.ok sym) →
          (∀ ks, kallsyms = some ks → (∀ k ∈ ks, addr < k.addr) ∨
            ∃ prog, Ksym.bpfProg prog ∈ ks ∧ NearestKsym ks addr prog.addr) →
          InCoreDebug env.shown env.opts image units s file symtab dynsym kallsyms addr x out := by
        intro hfb hor
        obtain ⟨y, rfl, y1, y2, y3, y4, y5, y6, y7⟩ := looked_of_found hfb h
        exact .unsized y (tells y addr y1 y2 y3 y4 y5 y6 y7) (by rw [y5, h0]) hor
      cases k with
      | none =>
        cases kallsyms with
        | some ks => cases hk
        | none => exact fallback hred (fun ks hks => by cases hks)
      | some f =>
        cases kallsyms with
        | none => cases hk
        | some ks =>
          simp only at hred hk
          have better : ∀ y' : Sym, InKallsyms (env.shown .unknown) ks addr (.sym y') →
              InCoreDebug env.shown env.opts image units s file symtab dynsym (some ks) addr x (.sym y') := by
            intro y' hy'
            exact .better ⟨env.shown sym.lang sym.name, sym.module, sym.addr, 0, sym.size, sym.codeInfo,
                sym.inlined.map fun f => { name := env.shown sym.lang f.name, codeInfo := f.codeInfo }⟩ y' ks
              (tells _ _ rfl rfl rfl rfl rfl rfl rfl) h0 rfl hy'
          generalize hq : f addr env.opts = q at hk hred
          cases hk with
          | function a n h1 h2 =>
            have := looked_of_sym hred h2.1 rfl h
            cases this
            exact better _ (.function a n h1 h2)
          | bpf prog location h1 h2 =>
            have := looked_of_sym hred h2.1 rfl h
            cases this
            exact better _ (.bpf prog location h1 h2)
          | bpfError prog e h1 h2 =>
            by_cases he : e = .panic
            · subst he
              have := looked_of_error hred h
              cases this
            · refine fallback ?_ (fun ks' hks => by cases hks; exact .inr ⟨prog, h1, h2⟩)
              rw [hred]
              cases e <;> first | (exact absurd rfl he) | rfl
          | missing h1 => exact fallback hred (fun ks' hks => by cases hks; exact .inl (by simp [h1]))
          | unknown h1 h2 => exact fallback hred (fun ks' hks => by cases hks; exact .inl h2)
    · simp only [h0, if_false] at hred
      obtain ⟨y, rfl, y1, y2, y3, y4, y5, y6, y7⟩ := looked_of_found hred h
      exact .function y (tells y addr y1 y2 y3 y4 y5 y6 y7) (by rw [y5]; exact h0)

theorem in_module_debug {env : Env} {module : Bytes} {units : List Dwarf.Unit} {s : Sections} {file : Bytes}
    {symtab dynsym : Elf.SymTab} {find f : SymFn} {addr x : Nat} (hx : x ≤ addr)
    (hf : FromDebug module units s file symtab dynsym env.opts x (f x env.opts))
    (h1 : ∀ s, f x env.opts = .ok (.ok s) → find addr env.opts = .ok (.ok s))
    (h2 : ∀ reason, f x env.opts = .ok (.error reason) → find addr env.opts = .ok (.error .unknownAddr))
    (h3 : ∀ e, f x env.opts = .error e → find addr env.opts = .error e)
    {out : Symbolized} (h : Looked env find addr (.ok out)) :
    InModuleDebug env.shown env.opts module units s file symtab dynsym addr x out := by
  generalize hr : f x env.opts = r at hf
  cases hf with
  | error e =>
    have := looked_of_error (h3 _ hr) h
    cases this
  | function sym hd d e name k1 k2 k3 k4 k5 kl k6 k7 =>
    obtain ⟨y, rfl, y1, y2, y3, y4, y5, y6, y7⟩ := looked_of_found (h1 _ hr) h
    refine .function y ⟨hd, d, e, name, _, k1, k2, k3, kl, by rw [y1, k4], by rw [y2, k5], y4, fun hrg => ?_,
      fun ho => ⟨_, by rw [y6]; exact k7 ho, y7⟩⟩
    obtain ⟨r, r1, r2, r3⟩ := k6 hrg
    exact ⟨r, r1, by rw [y3, r2], by rw [y5, r3]⟩
  | symbols _ r' hno hfe hsame =>
    cases hsame with
    | reason reason =>
      have hl : Looked env (foundAs (.ok (.error .unknownAddr))) addr (.ok out) :=
        looked_congr (h2 _ hr) h
      exact .symbols out out hno (in_module (f := foundAs (.ok (.error reason)))
        (find := foundAs (.ok (.error .unknownAddr))) hx hfe (fun s hs => by cases hs) (fun _ _ => rfl)
        (fun e he => by cases he) hl) (by cases looked_of_reason (h2 _ hr) h; exact .unknown _)
    | sym sym sym' n1 n2 n3 n4 n5 n6 =>
      have hsf : SameFound s env.opts x (find addr env.opts) (foundAs (.ok (.ok sym')) addr env.opts) := by
        rw [h1 _ hr]; exact .sym sym sym' n1 n2 n3 n4 n5 n6
      obtain ⟨out', h4, h5⟩ := samePlace_of hsf h
      exact .symbols out out' hno (in_module (f := foundAs (.ok (.ok sym'))) (find := foundAs (.ok (.ok sym'))) hx hfe
        (fun s hs => hs) (fun r hs => by cases hs) (fun e he => by cases he) h4) h5

/-! ### The KASLR offset -/

theorem elfFindAddr_debug {t : Tools} {module data : Bytes} {d : DebugData} {s : Sections}
    (hu : parseUnits t.σ s = .ok d.units) (hs : Spec.Dwarf.HeadersSorted s) {name : Bytes}
    (hno : NoFunctionNamed d.units.units name) :
    elfFindAddr t (.dwarf ⟨some module, .mem 4096 data⟩ d) name =
        elfFindAddr t (.elf (d.linkee.getD ⟨some module, .mem 4096 data⟩)) name ∨
      ∃ e, elfFindAddr t (.dwarf ⟨some module, .mem 4096 data⟩ d) name = .error e := by
  unfold elfFindAddr ElfResolver.findAddr
  simp only [debugFindAddr]
  rw [if_neg (by simp)]
  simp only [bind, Except.bind]
  cases hf : d.units.findName t.σ name d.units.units with
  | error e => exact .inr ⟨e, rfl⟩
  | ok fs =>
    have hnil : fs = [] := by
      obtain ⟨_, k2⟩ := findName_ok _ _ hf
      by_contra hne
      obtain ⟨f, hfm⟩ := List.exists_mem_of_ne_nil fs hne
      obtain ⟨u, hum, hu2⟩ := k2 f hfm
      obtain ⟨du, st, q1, q2⟩ := unitFindName_ok (units_sorted hu hs) hu2
      rcases q2 with ⟨q2, _⟩ | ⟨g, x', pre, post, q2, q3, q4, q5, _⟩
      · cases q2
      · exact hno u hum du st x' q1 (by rw [q3]; simp) (q5 ▸ q4.2.1)
    subst hnil
    left
    simp [Resolver.symInfos]

theorem detectKaslr_debug {t : Tools} {w : World M} {k : Option (List Ksym)} {module data : Bytes} {d : DebugData}
    {s : Sections} (hu : parseUnits t.σ s = .ok d.units) (hs : Spec.Dwarf.HeadersSorted s)
    (hno : NoFunctionNamed d.units.units (ascii "_stext")) {offset : Nat}
    (h : detectKaslr t w k (some (.dwarf ⟨some module, .mem 4096 data⟩ d)) = .ok offset) :
    detectKaslr t w k (some (.elf (d.linkee.getD ⟨some module, .mem 4096 data⟩))) = .ok offset := by
  unfold detectKaslr at h ⊢
  simp only [Option.map_some] at h ⊢
  cases hc : w.sys.kcore with
  | ok data' =>
    cases hr : readKcoreOffset data' with
    | ok r' =>
      rw [hc, C35_kcore_used data' _ _ r' hr] at h
      rw [C35_kcore_used data' _ _ r' hr]
      exact h
    | error e =>
      obtain ⟨h1, h2⟩ := readKcore_error data' e hr
      rw [hc, (C35_errors _ _ e).2.2.1 data' hr h1 h2] at h
      cases h
  | error e =>
    by_cases h1 : e = .notFound
    · subst h1
      rw [hc, C35_missing_kcore] at h
      rw [C35_missing_kcore]
      exact h
    · by_cases h2 : e = .permissionDenied
      · subst h2
        cases k with
        | none =>
          rw [hc, Option.map_none, (C35_errors none _ .notFound).2.1 (.inl rfl)] at h
          cases h
        | some syms =>
          rw [hc] at h
          simp only [Option.map_some] at h ⊢
          have hred : ∀ g, findKaslrOffset (.error .permissionDenied) (some (kallsymsFindAddr syms)) (some g) =
            findStextOffset (kallsymsFindAddr syms) g := fun _ => rfl
          rcases elfFindAddr_debug (module := module) (data := data) hu hs hno with he | ⟨e, he⟩
          · rw [hred] at h ⊢
            unfold findStextOffset inspectSymAddr at h ⊢
            rw [he] at h
            exact h
          · rw [(C35_errors none none e).2.2.2.2 _ _ _ rfl he] at h
            cases h
      · rw [hc, (C35_errors _ _ e).1 h2 h1] at h
        cases h

/-! ### The kernel -/

/-- **C73** (debug information; partial: functions that are not nested, and C66 says what debug
information a file has) Symbolizing an address of the kernel with debug information, which is the default,
reports what the files of the system say: for an address in a module that is loaded, the function that the
debug information of the module's file has for it, or else the symbol that stands for it; for other
addresses the function of the debug information of the kernel image, the symbol of the image or the symbol
of kallsyms, depending on which of them are asked for and there.  If line programs are orderly, source
locations and inlined functions are those of the debug information (see C64). -/
theorem C73_debug_partial [DecidableEq M] (cfg : Settings M (KernelCache M)) (w : World M)
    (s : State M (KernelCache M)) (src : KernelSource) (hds : src.debugSyms = true)
    (hd : ∀ mods, LoadedModules w mods → Spec.Kernel.Disjoint mods) (addr : Nat) (out : Symbolized)
    (h : symbolizeSingle (envNow cfg w s) (.kernel src) (.absAddr addr) = .ok out) :
    KernelDebugAnswer cfg (shownBy cfg) (wantedBy cfg) w src addr out := by
  rw [← wantedBy_eq]
  let t := cfg.tools
  cases hk : (envNow cfg w s).kernel src with
  | error e =>
    simp [symbolizeSingle, Input.map, symbolizeImpl, hk] at h
  | ok find =>
    have hl := (C42_kernel (envNow cfg w s) src find addr (.ok out) hk).mp h
    have hk' : kernelAt t cfg.debugDirs w ⟨none, none, none⟩ src = .ok find := hk
    unfold kernelAt at hk'
    rw [hds] at hk'
    cases hn : kernelResolverNew (sourcesAt t cfg.debugDirs w ⟨none, none, none⟩ true) src.kallsyms src.vmlinux src.kaslr with
    | error e => rw [hn] at hk'; cases hk'
    | ok parts =>
      rw [hn] at hk'
      simp only [Except.ok.injEq] at hk'
      cases hsk : selectKsym (sourcesAt t cfg.debugDirs w ⟨none, none, none⟩ true) src.kallsyms with
      | error e => rw [(C34_new_errors _ _ _ _ e).1 hsk] at hn; cases hn
      | ok k =>
      cases hsv : selectVmlinux (sourcesAt t cfg.debugDirs w ⟨none, none, none⟩ true) src.vmlinux with
      | error e => rw [(C34_new_errors _ _ _ _ e).2 k hsk hsv] at hn; cases hn
      | ok v =>
      obtain ⟨kallsyms, u1, u2⟩ := uses_kallsyms hsk
      obtain ⟨image, u3, rfl⟩ := uses_debug_image hsv
      obtain ⟨n1, n2, n3, n4, n5⟩ := C34_new (sourcesAt t cfg.debugDirs w ⟨none, none, none⟩ true) src.kallsyms
        src.vmlinux src.kaslr k (debugResolver image) hsk hsv
      have hparts : parts.ksym = k ∧ parts.vmlinux = debugResolver image ∧
          (∀ o, src.kaslr = some o → parts.kaslr = o) ∧
          (debugResolver image ≠ none → src.kaslr = none → detectKaslr t w k (debugResolver image) = .ok parts.kaslr) := by
        by_cases hsome : k ≠ none ∨ debugResolver image ≠ none
        · cases ho : src.kaslr with
          | some o =>
            rw [n2 o hsome ho] at hn
            cases hn
            exact ⟨rfl, rfl, fun o' h => (by cases h; rfl), fun _ h => (by cases h)⟩
          | none =>
            by_cases hv : debugResolver image = none
            · have hkn : k ≠ none := hsome.resolve_right (fun h => h hv)
              rw [n3 hkn hv ho] at hn
              cases hn
              exact ⟨rfl, hv.symm, fun o' h => (by cases h), fun h => absurd hv h⟩
            · cases hdet : detectKaslr t w k (debugResolver image) with
              | error e => rw [n5 e hv ho hdet] at hn; cases hn
              | ok o =>
                rw [n4 o hv ho hdet] at hn
                cases hn
                exact ⟨rfl, rfl, fun o' h => (by cases h), fun _ _ => rfl⟩
        · have hk0 : k = none := by by_contra hc; exact hsome (.inl hc)
          have hv0 : debugResolver image = none := by by_contra hc; exact hsome (.inr hc)
          rw [n1 hk0 hv0] at hn
          cases hn
      obtain ⟨p1, p2, p3, p4⟩ := hparts
      rw [p1, p2] at hk'
      cases image with
      | none =>
        cases k with
        | none => rw [n1 rfl rfl] at hn; cases hn
        | some syms =>
          cases kallsyms with
          | none => cases u2
          | some ks =>
            refine .kallsyms ks u3 u1 (in_kallsyms (env := envNow cfg w s) ?_ hl)
            rw [← hk']
            exact from_kallsyms w.sys.bpfLines u2.1 u2.2 addr _
      | some i =>
        obtain ⟨image, data, d⟩ := i
        subst hk'
        set kr : KernelResolver := ⟨k.map (ksymFindSym w.sys.bpfLines),
          (debugResolver (some (image, data, d))).map (·.findSym t), parts.kaslr⟩ with hkr
        set ke := modulesAt t cfg.debugDirs w ⟨none, none, none⟩ true with hke
        have hv : kr.vmlinux = some (ElfResolver.findSym t (.dwarf ⟨some image, .mem 4096 data⟩ d)) := rfl
        cases hm : ke.modmap with
        | error e =>
          have := looked_of_error ((C34_refused kr ke _ addr (envNow cfg w s).opts hv).2 e hm) hl
          cases this
        | ok mods =>
          obtain ⟨ms, m1, m2, m3⟩ := loaded_modules (t := t) (w := w) hm
          have hdis : Spec.Kernel.Disjoint mods := by
            obtain ⟨d1, d2⟩ := hd ms m1
            exact ⟨fun m hm m' hm' => d1 m (m2.mem_iff.mp hm) m' (m2.mem_iff.mp hm'), fun m hm => d2 m (m2.mem_iff.mp hm)⟩
          by_cases hin : ∃ m ∈ mods, Spec.Kernel.InMod m addr
          · obtain ⟨m, hmem, hin⟩ := hin
            obtain ⟨f1, f2⟩ := C34_module_missing kr ke _ mods m addr (envNow cfg w s).opts hv hm m3 hdis hmem hin .other
            cases hdep : ke.depmod with
            | error e =>
              have := looked_of_error ((C34_module_missing kr ke _ mods m addr (envNow cfg w s).opts hv hm m3 hdis hmem hin e).1
                hdep) hl
              cases this
            | ok di =>
              obtain ⟨dir, index⟩ := di
              have hidx : HasIndex w dir index := C73_index.mp hdep
              cases hp : findPath dir index m.name with
              | error e =>
                have := looked_of_error (((C34_module_missing kr ke _ mods m addr (envNow cfg w s).opts hv hm m3 hdis hmem
                  hin e).2 dir index hdep).2.1 hp) hl
                cases this
              | ok o =>
                cases o with
                | none =>
                  have := looked_of_reason ((f2 dir index hdep).1 hp) hl
                  cases this
                  exact .unlisted image data d ms m dir index u3 m1 (m2.mem_iff.mp hmem) hin hidx (listed_of.2 hp) rfl
                | some path =>
                  cases hf : moduleResolver ke path with
                  | error e =>
                    have := looked_of_error (((C34_module_missing kr ke _ mods m addr (envNow cfg w s).opts hv hm m3 hdis
                      hmem hin e).2 dir index hdep).2.2 path hp hf) hl
                    cases this
                  | ok f =>
                    obtain ⟨represented, file, md, g1, g2, rfl⟩ := module_debug hf
                    obtain ⟨c1, c2, c3⟩ := C34_module kr ke _ mods m addr (envNow cfg w s).opts dir index path _ hv hm m3
                      hdis hmem hin hdep hp hf
                    have hle := hin.1
                    refine .module image data d ms m dir index path represented file md (addr - m.addr) u3 m1
                      (m2.mem_iff.mp hmem) hin hidx (listed_of.1 path hp) g1 g2 (by omega) ?_
                    intro hlt sec name symtab dynsym hparts
                    exact in_module_debug (env := envNow cfg w s) (by omega) (from_debug hparts hlt _) c1 c2 c3 hl
          · have hno : ∀ m ∈ mods, ¬ Spec.Kernel.InMod m addr := fun m hm hi => hin ⟨m, hm, hi⟩
            by_cases hle : parts.kaslr ≤ addr
            · refine .core image data d kallsyms ms parts.kaslr (addr - parts.kaslr) u3 u1 m1
                (fun m hm => hno m (m2.mem_iff.mpr hm)) (by omega) ?_
              intro hlt sec name symtab dynsym hparts
              refine ⟨fun hst => ?_, ?_⟩
              · cases ho : src.kaslr with
                | some o => rw [p3 o ho]; exact .given o ho
                | none =>
                  have hdet := detectKaslr_debug hparts.units hparts.sorted hst (p4 (by simp [debugResolver]) ho)
                  obtain ⟨img, phdrs, q1, q2⟩ := hparts.file
                  rw [q1] at hdet
                  exact C73_offset t w ho u2 q2 hdet
              · refine in_core_debug (env := envNow cfg w s) (k := kr.ksym) (offset := parts.kaslr) (by omega)
                  (from_debug hparts hlt _) ?_ (looked_congr (findSym_core kr ke _ mods addr _ hv hm m3 hdis hno) hl)
                cases k with
                | none => cases kallsyms with
                  | none => trivial
                  | some ks => cases u2
                | some syms => cases kallsyms with
                  | none => cases u2
                  | some ks => exact from_kallsyms w.sys.bpfLines u2.1 u2.2 addr _
            · have := looked_of_error ((C34_refused kr ke _ addr (envNow cfg w s).opts hv).1 mods hm m3 hdis hno
                (by show addr < parts.kaslr; omega)) hl
              cases this

/-- **C73** (debug information; partial: orderly histories, and see above) The same for a symbolizer after
any orderly use, as long as no module is loaded or unloaded and the KASLR offset stays. -/
theorem C73_debug_symbolizer_partial [DecidableEq M] {cfg : Settings M (KernelCache M)} (hst : Standard cfg)
    {kn : Known M} {mods : Except Err (List Mod)} {index : Except Err (Bytes × Bytes)} {offset : Nat}
    {s : State M (KernelCache M)}
    (hr : Reachable cfg (fun s w c => KernelOrderly cfg kn s w c ∧ SameSystem cfg.tools mods index offset w) s)
    (w : World M) (hw : w.disk.contents = kn.contents) (hsys : SameSystem cfg.tools mods index offset w)
    (src : KernelSource) (hds : src.debugSyms = true) (hf : KernelFits cfg kn w s src) (ht : TextKallsyms w src)
    (hd : ∀ mods, LoadedModules w mods → Spec.Kernel.Disjoint mods) (addr : Nat) (out : Symbolized)
    (h : (s.symbolizeSingle cfg w (.kernel src) (.absAddr addr)).1 = .ok out) :
    KernelDebugAnswer cfg (shownBy cfg) (wantedBy cfg) w src addr out := by
  obtain ⟨h1, h2, h3⟩ := C70_origin hst hr
  have hk : kernelAt cfg.tools cfg.debugDirs w (remembered s) =
      kernelAt cfg.tools cfg.debugDirs w ⟨none, none, none⟩ := by
    funext src
    refine kernelAt_remembered hsys _ ?_ ?_ ?_ src
    · intro x hx
      obtain ⟨_, w0, _, _, _, ho, _, h⟩ := h1 x hx
      rw [← ho.2.1, h]
    · intro x hx
      obtain ⟨_, w0, _, _, _, ho, _, h⟩ := h2 x hx
      rw [← ho.2.2.1, h]
    · intro x hx
      obtain ⟨_, w0, _, _, k, v, _, ho, _, h⟩ := h3 x hx
      rw [ho.2.2.2 k v] at h
      exact (Except.ok.inj h).symm
  have he : envWithKernel cfg w s = envNow cfg w s := by
    unfold envWithKernel envNow
    rw [hk]
  rw [(C70_debug_partial hst (reachable_mono (fun _ _ _ h => h.1) hr) w hw src hf ht).2, he] at h
  exact C73_debug_partial cfg w s src hds hd addr out h

/-! ### Examples -/

/-- Tools with which every file has the debug information of `exFile`. -/
def exDebugTools : Tools := { exTools with load := fun _ _ => parseUnits insertSorter exFile }

/-- A symbolizer with them. -/
def exDebugKernel : Settings Nat (KernelCache Nat) :=
  { exKernel true with tools := exDebugTools, kernel := createKernelResolver exDebugTools Inspect.defaultDebugDirs }

set_option maxRecDepth 20000 in
/-- An address in the core kernel, one in the module, and one the debug information says nothing about. -/
example :
    brief1 (symbolizeSingle (envNow exDebugKernel (exMachine 2 true) (State.new exDebugKernel))
      (.kernel ⟨.default, .some (ascii "/stext"), none, true⟩) (.absAddr 0x300a)) =
        .ok (some (exFoo, some (ascii "/stext"), 0x1000, 0x200a)) ∧
    brief1 (symbolizeSingle (envNow exDebugKernel (exMachine 2 true) (State.new exDebugKernel))
      (.kernel ⟨.default, .some (ascii "/stext"), none, true⟩) (.absAddr 0x200a)) =
        .ok (some (exFoo, some (ascii "/lib/modules/6/k/ab.ko"), 0x1000, 0x100a)) ∧
    brief1 (symbolizeSingle (envNow exDebugKernel (exMachine 2 true) (State.new exDebugKernel))
      (.kernel ⟨.default, .some (ascii "/stext"), none, true⟩) (.absAddr 0x9004)) =
        .ok (some (ascii "_stext", none, 0x3000, 0x6004)) := by
  refine ⟨?_, ?_, ?_⟩ <;> decide +kernel

example : Spec.Dwarf.LinesOrderly exFile := exFile_linesOrderly

/-- The parts of the debug information. -/
example (u : Units) (hu : parseUnits insertSorter exFile = .ok u) :
    DebugParts exDebugTools (ascii "/f") (.mem 4096 Elf.tinyElf) ⟨u, none⟩ exFile (ascii "/f") tinySymtab ⟨[], []⟩ where
  units := hu
  sorted := exFile_sorted
  apart := by
    intro h hm d stream he
    rw [List.mem_singleton.mp hm] at he
    obtain ⟨_, rfl⟩ := entriesOf_unique he exFile_entries
    exact exFile_apart
  file := ⟨_, _, rfl, tinyParts 4096 (by simp)⟩

example : ∃ u, parseUnits insertSorter exFile = .ok u := C36_accepted _ _ exFile_ok

example : ∀ mods, LoadedModules (exMachine 2 true) mods → Spec.Kernel.Disjoint mods := exMachine_disjoint 2

end Blazesym.Symbolize
